import Verif.Model.Layout
/-
Arrays with initial values: `build_array(lib, typ, size, vals)` (/repo/pyclibrary/c_library.py:648-669) and
`CTypesCLibrary._get_array` (/repo/pyclibrary/backends/ctypes.py:371-386).

`new(*vals)` is done by ctypes itself (CPython, `Array_init`, `_init_pos_args`, `_PyCData_set` and the setters of the integer
classes), which is modelled here: it is not part of /repo.  An object is the list of its bytes, integers are stored
little-endian.  Values for classes other than integers are converted by the parameter `conv`.  Simplification: the values of a
struct are matched with its fields by position (ctypes goes through the names of the fields, which are different by C50).
-/
namespace Pyclib

/-- Python objects given as values. -/
inductive PyInit where
  | int (i : Int)
  | tup (l : List PyInit)
  | list (l : List PyInit)
  | other (n : Nat)

/-- The integer classes of ctypes; `true` for the signed ones. -/
def intClasses : Dict Str Bool :=
  [(c%"c_byte", true), (c%"c_ubyte", false), (c%"c_short", true), (c%"c_ushort", false), (c%"c_int", true), (c%"c_uint", false),
   (c%"c_long", true), (c%"c_ulong", false), (c%"c_longlong", true), (c%"c_ulonglong", false), (c%"c_int8", true), (c%"c_uint8", false),
   (c%"c_int16", true), (c%"c_uint16", false), (c%"c_int32", true), (c%"c_uint32", false), (c%"c_int64", true), (c%"c_uint64", false),
   (c%"c_size_t", false), (c%"c_ssize_t", true)]

/-- The low `n` bytes of an integer. -/
def leBytes : Nat → Int → List Nat
  | 0, _ => []
  | n + 1, i => (i % 256).toNat :: leBytes n (i / 256)

/-- Bytes stored at an offset. -/
def setAt (b : List Nat) (o : Nat) (x : List Nat) : List Nat := b.take o ++ (x ++ b.drop (o + x.length))

/-- The values are stored one after the other into parts with the given offsets and classes; `many` is raised if there are more. -/
def fillFrom (many : PyErr) (enc : Cls → PyInit → Except PyErr (List Nat)) :
    List (Nat × Cls) → List PyInit → List Nat → Except PyErr (List Nat)
  | _, [], b => .ok b
  | [], _ :: _, _ => .error many
  | (o, c) :: fs, v :: vs, b =>
    match enc c v with
    | .error e => .error e
    | .ok x => fillFrom many enc fs vs (setAt b o x)

section
variable (z : CtSizes) (classes : List CompCls) (conv : Cls → PyInit → Except PyErr (List Nat))

/-- `c(*args)`: a new object is zero, then the values are stored; `enc` converts one value. -/
def construct (k : Nat) (enc : Cls → PyInit → Except PyErr (List Nat)) (c : Cls) (args : List PyInit) : Except PyErr (List Nat) :=
  match c with
  | .void => .error .typeError
  | .arr n c =>
    match clsLayout z classes k c with
    | none => .error .typeError
    | some r => fillFrom .indexError enc ((List.range n.toNat).map (fun i => (i * r.1, c))) args (List.replicate (n.toNat * r.1) 0)
  | .comp id =>
    match clsOffsets z classes k id, clsLayout z classes k (.comp id), (classes[id]?).bind (·.fields) with
    | some os, some r, some fs => fillFrom .typeError enc (os.zip (fs.map (·.2.1))) args (List.replicate r.1 0)
    | _, _, _ => .error .typeError
  | .prim p =>
    match args, z.prims p with
    | [], some r => .ok (List.replicate r.1 0)
    | [v], _ => enc (.prim p) v
    | _, _ => .error .typeError
  | c =>
    match args with
    | [] => .ok (List.replicate z.ptr.1 0)
    | vs => conv c (.tup vs)

/-- The bytes of a value converted to a class, at most `k` classes deep.  A tuple for an array, Structure or Union makes a new object of
that class; errors on the way become `RuntimeError`. -/
def encode : Nat → Cls → PyInit → Except PyErr (List Nat)
  | 0, _, _ => .error .recursionError
  | k + 1, c, v =>
    match c with
    | .prim p =>
      match dget intClasses p with
      | none => conv c v
      | some _ =>
        match v, z.prims p with
        | .int i, some r => .ok (leBytes r.1 i)
        | _, _ => .error .typeError
    | .arr n c =>
      match v with
      | .tup l =>
        match construct z classes conv k (encode k) (.arr n c) l with
        | .ok b => .ok b
        | .error _ => .error .runtimeError
      | .other _ => conv (.arr n c) v
      | _ => .error .typeError
    | .comp id =>
      match v with
      | .tup l =>
        match construct z classes conv k (encode k) (.comp id) l with
        | .ok b => .ok b
        | .error _ => .error .runtimeError
      | .other _ => conv (.comp id) v
      | _ => .error .typeError
    | c => conv c v

/-- The part of an object of class `c` reached by a path of indices and field numbers (`obj[1][2].x`): its offset and class. -/
def clsAt (k : Nat) : Cls → List Nat → Option (Nat × Cls)
  | c, [] => some (0, c)
  | .arr n c, i :: p =>
    if i < n.toNat then
      (clsLayout z classes k c).bind fun r => (clsAt k c p).map fun q => (i * r.1 + q.1, q.2)
    else none
  | .comp id, i :: p =>
    match (clsOffsets z classes k id).bind (·[i]?), ((classes[id]?).bind (·.fields)).bind (·[i]?) with
    | some o, some f => (clsAt k f.2.1 p).map fun q => (o + q.1, q.2)
    | _, _ => none
  | _, _ :: _ => none

/-- The number stored in bytes. -/
def leNum : List Nat → Nat
  | [] => 0
  | b :: bs => b + 256 * leNum bs

/-- What Python reads at a path that leads to an integer: bytes with the sign of the class. -/
def pyRead (k : Nat) (c : Cls) (b : List Nat) (p : List Nat) : Option Int :=
  match clsAt z classes k c p with
  | some (o, .prim q) =>
    match dget intClasses q, z.prims q with
    | some sg, some r =>
      let n := leNum ((b.drop o).take r.1)
      some (if sg && 2 * n ≥ 256 ^ r.1 then (n : Int) - 256 ^ r.1 else n)
    | _, _ => none
  | _ => none

end

/-- The type given to `build_array`: a ctypes class or the name of a type. -/
inductive ArrTyp where
  | cls (c : Cls)
  | name (x : Str)

/-- `size`: an integer or a tuple (ctypes.py:376-377). -/
inductive ArrSize where
  | one (n : Int)
  | dims (l : List Int)

def ArrSize.list : ArrSize → List Int
  | .one n => [n]
  | .dims l => l

/-- `typ`, if it is not a class (ctypes.py:373-374). -/
def arrTyp (e : CtEnv) (n : Nat) (st : CtState) : ArrTyp → Except PyErr Cls × CtState
  | .cls c => (.ok c, st)
  | .name x => getType e n st ⟨x, [], [some []]⟩

/-- `_get_array` (ctypes.py:371-386): the class and the bytes of the new object. -/
def buildArray (e : CtEnv) (n : Nat) (z : CtSizes) (conv : Cls → PyInit → Except PyErr (List Nat)) (k : Nat) (st : CtState) (typ : ArrTyp)
    (size : ArrSize) (vals : Option (List PyInit)) : Except PyErr (Cls × List Nat) × CtState :=
  match arrTyp e n st typ with
  | (.error x, st) => (.error x, st)
  | (.ok c, st) =>
    match arrayCls c size.list with
    | .error x => (.error x, st)
    | .ok c =>
      match construct z st.classes conv k (encode z st.classes conv k) c (vals.getD []) with
      | .error x => (.error x, st)
      | .ok b => (.ok (c, b), st)

end Pyclib
