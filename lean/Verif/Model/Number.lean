import Verif.Model.Fill
import Verif.Model.Result
/-
Calls with numbers and memory made of bytes: `lib.f(*args, **kws)` (/repo/pyclibrary/c_library.py:422-506) down to the values the C function
finds, and the numbers read from the `CallResult` (c_library.py:578-625).

The conversion of arguments is done by ctypes (CPython, `from_param` of the classes in `argtypes`, which `_init_function` sets,
/repo/pyclibrary/backends/ctypes.py:388-391) and is modelled here; it is not part of /repo.  Numbers are stored little-endian.  Objects that ctypes
would convert in other ways are left to the parameter `conv`.
-/
namespace Pyclib

/-- The contents of a block: its bytes. -/
abbrev Bytes := Nat → Nat

/-- `n` bytes from offset `o`. -/
def bytesFrom (r : Bytes) (o n : Nat) : List Nat := (List.range n).map (fun j => r (o + j))

/-- Objects given by the caller: integers, `bytes`, ctypes objects in a block of memory, others. -/
inductive NObj where
  | int (i : Int)
  | bytes (l : List Nat)
  | inst (c : Cls) (b : Nat)
  | other (n : Nat)

/-- What a C function gets for an argument: the bytes of a number, the address of a text (outside the memory modelled), a copy of the contents of an
object, or the address of a block. -/
inductive CArg where
  | value (bs : List Nat)
  | text (bs : List Nat)
  | copy (r : Bytes)
  | addr (b : Nat)

mutual
/-- `c is d` for classes. -/
def sameCls : Cls → Cls → Bool
  | .void, .void => true
  | .prim p, .prim q => p == q
  | .comp i, .comp j => i == j
  | .ptr c, .ptr d => sameCls c d
  | .arr n c, .arr m d => n == m && sameCls c d
  | .fn s c as, .fn t d bs => s == t && sameCls c d && sameAll as bs
  | _, _ => false
/-- For the classes of parameters. -/
def sameAll : List Cls → List Cls → Bool
  | [], [] => true
  | a :: as, b :: bs => sameCls a b && sameAll as bs
  | _, _ => false
end

/-- `c.from_param(a)` and the value passed: a number for an integer class; for `c_char_p` and `c_void_p`, the address of the bytes of a `bytes` object,
which CPython ends with a zero byte; an object of that class, by value (arrays by their address); for a
pointer class, an object or array of the class pointed to is passed by its address. -/
def fromParam (z : CtSizes) (conv : Cls → NObj → Except PyErr CArg) (m : Mem Bytes) (c : Cls) (a : NObj) : Except PyErr CArg :=
  match a with
  | .int i =>
    match c with
    | .prim p =>
      match dget intClasses p, z.prims p with
      | some _, some r => .ok (.value (leBytes r.1 i))
      | _, _ => conv c a
    | c => conv c a
  | .bytes l =>
    match c with
    | .prim p => if p ∈ [c%"c_char_p", c%"c_void_p"] then .ok (.text (l ++ [0])) else conv c a
    | c => conv c a
  | .inst d b =>
    if sameCls d c then
      match c with
      | .arr _ _ => .ok (.addr b)
      | _ => .ok (.copy (m.cell b))
    else
      match c with
      | .ptr c' =>
        if sameCls d c' then .ok (.addr b)
        else
          match d with
          | .arr _ d' => if sameCls d' c' then .ok (.addr b) else conv c a
          | _ => conv c a
      | c => conv c a
  | .other _ => conv c a

/-- An argument given by the caller or made by the library (`cls()`, `pointer(cls())`), as the C function gets it.  A pointer object is accepted for
its own class and for `c_void_p`. -/
def lowerArg (z : CtSizes) (conv : Cls → NObj → Except PyErr CArg) (m : Mem Bytes) (c : Cls) : PyV NObj Bytes → Except PyErr CArg
  | .given a => fromParam z conv m c a
  | .inst d b => fromParam z conv m c (.inst d b)
  | .ref d b =>
    match c with
    | .ptr c' => if sameCls d c' then .ok (.addr b) else .error .typeError
    | .prim p => if p = c%"c_void_p" then .ok (.addr b) else .error .typeError
    | _ => .error .typeError
  | _ => .error .typeError

/-- All arguments, against `argtypes`; the first failure is raised (`ArgumentError`, here `TypeError`). -/
def lowerArgs (z : CtSizes) (conv : Cls → NObj → Except PyErr CArg) (m : Mem Bytes) :
    List Cls → List (PyV NObj Bytes) → Except PyErr (List CArg)
  | c :: cs, v :: vs =>
    match lowerArg z conv m c v with
    | .error x => .error x
    | .ok a =>
      match lowerArgs z conv m cs vs with
      | .error x => .error x
      | .ok as => .ok (a :: as)
  | _, [] => .ok []
  | [], _ :: _ => .error .typeError

/-- The bytes of an object of class `c` with contents `r`. -/
def objBytes (z : CtSizes) (classes : List CompCls) (k : Nat) (c : Cls) (r : Bytes) : List Nat :=
  match clsLayout z classes k c with
  | some x => bytesFrom r 0 x.1
  | none => []

/-- What Python reads at a path (`x`, `x[1].y`) of an object met in a `CallResult`, if it is an integer; classes are at most `k` deep. -/
def pyNum (z : CtSizes) (classes : List CompCls) (k : Nat) (m : Mem Bytes) : PyV NObj Bytes → List Nat → Option Int
  | .val p r, [] => pyRead z classes k (.prim p) (objBytes z classes k (.prim p) r) []
  | .inst c b, path => pyRead z classes k c (objBytes z classes k c (m.cell b)) path
  | _, _ => none

/-- A C function: from the arguments and the memory to the contents of the memory and the result. -/
abbrev CBody := List CArg → Mem Bytes → (Nat → Bytes) × Bytes

/-- `lib.f(*args, **kws)` with the C function `bodies f`. -/
def runNum (e : CtEnv) (n : Nat) (l : Lib CtObj CtState) (z : CtSizes) (conv : Cls → NObj → Except PyErr CArg) (bodies : Str → CBody)
    (st : LState CtObj CtState) (m : Mem Bytes) (f : Str) (args : List (PyArg NObj)) (kws : List (Str × PyArg NObj)) :
    Except PyErr (CRes (PyV NObj Bytes)) × LState CtObj CtState × Mem Bytes :=
  match l.getattr st f with
  | (.error x, st) => (.error x, st, m)
  | (.ok (.obj (.func x g)), st) =>
    match callFunc e n g (.error .nameError) st.b args kws with
    | (.raised x, b) => (.error x, { st with b := b }, m)
    | (.called as gs, b) =>
      let vs := passAll (fun _ => 0) m as
      match lowerArgs z conv vs.2 g.argTypes vs.1 with
      | .error y => (.error y, { st with b := b }, vs.2)
      | .ok cargs =>
        let r := runProc (fun _ => 0) (fun _ m => bodies x cargs m) g as gs m
        (.ok r.1, { st with b := b }, r.2)
  | (.ok _, st) => (.error .typeError, st, m)

end Pyclib
