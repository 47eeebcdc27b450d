import Verif.Model.Number
/-
`cast_to` (/repo/pyclibrary/c_library.py:628-646) and `_cast_to` (/repo/pyclibrary/backends/ctypes.py:364-369).

`ctypes.cast(obj, typ)` is CPython's and modelled here: `obj` is converted like an argument of type `void *`, then `typ` has to be a pointer class.
Integers given as addresses, bytes, strings and other objects are left to the parameter `conv`.
-/
namespace Pyclib

/-- Where a pointer points: nowhere, or to a byte of a block of memory. -/
inductive Addr where
  | null
  | at (b o : Nat)

/-- Objects given to `cast_to`: `None`, an array (at an offset of a block), an instance of a pointer class, an instance of another class, others. -/
inductive CastObj where
  | none
  | arr (n : Int) (c : Cls) (b o : Nat)
  | ptr (c : Cls) (a : Addr)
  | inst (c : Cls) (b o : Nat)
  | other (n : Nat)

/-- The address ctypes takes from an object (`c_void_p.from_param`). -/
def addrOf (conv : Nat → Except PyErr Addr) : CastObj → Except PyErr Addr
  | .none => .ok .null
  | .arr _ _ b o => .ok (.at b o)
  | .ptr _ a => .ok a
  | .inst _ _ _ => .error .typeError
  | .other n => conv n

/-- The classes that `ctypes.cast` accepts. -/
def isPtrCls : Cls → Bool
  | .ptr _ => true
  | .fn _ _ _ => true
  | .prim p => decide (p ∈ [c%"c_void_p", c%"c_char_p", c%"c_wchar_p"])
  | _ => false

/-- `_cast_to` (ctypes.py:364-369): the class and the address of the new pointer. -/
def castTo (e : CtEnv) (n : Nat) (conv : Nat → Except PyErr Addr) (st : CtState) (obj : CastObj) (typ : ArrTyp) : Except PyErr (Cls × Addr) × CtState :=
  match arrTyp e n st typ with
  | (.error x, st) => (.error x, st)
  | (.ok c, st) =>
    match addrOf conv obj with
    | .error x => (.error x, st)
    | .ok a => if isPtrCls c then (.ok (c, a), st) else (.error .typeError, st)

/-- What Python reads through a pointer at an index and a path (`p[i].x[2]`), if it is an integer; classes are at most `k` deep. -/
def derefNum (z : CtSizes) (classes : List CompCls) (k : Nat) (m : Mem Bytes) (p : Cls × Addr) (i : Nat) (path : List Nat) : Option Int :=
  match p with
  | (.ptr c, .at b o) =>
    match clsLayout z classes k c with
    | some r => pyRead z classes k c (bytesFrom (m.cell b) (o + i * r.1) r.1) path
    | none => none
  | _ => none

end Pyclib
