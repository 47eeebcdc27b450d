import Verif.Spec.Fill
import Verif.Spec.Result
import Verif.Model.Number
/-
Specification: numbers through calls of C functions.
-/
namespace Pyclib.Spec
open Pyclib

/-- The number `r` of an integer type of `sz` bytes is in the contents of a block at offset `o`. -/
def Holds (sz : Nat) (sg : Bool) (x : Bytes) (o : Nat) (r : Int) : Prop := StoredInt sz sg ((List.range sz).map (fun j => x (o + j))) r

section
variable (types : Dict Str Str) (structs : Dict Str Nat) (cfg : Cfg) (s : Store DefVal) (abi : Abi) (sgn : Str → Option Bool)

/-- C types without functions and without `void` other than behind a pointer. -/
inductive PlainTy : CTy → Prop
  | base (b : Str) (h : b ≠ c%"void") : PlainTy (.base b)
  | ptr (v : CTy) (h : PlainTy v) : PlainTy (.ptr v)
  | voidPtr : PlainTy (.ptr (.base c%"void"))
  | arr (n : Nat) (v : CTy) (h : PlainTy v) : PlainTy (.arr (some (n : Int)) v)

/-- A type whose pointers are ordinary pointers of ctypes (not `char`, `wchar_t`, `void`). -/
def Pointed (w : CTy) : Prop := PlainTy w ∧ ∀ b, w = .base b → specialPtr b = none

/-- What can be given for a parameter of type `v`: a number for an integer type, a `bytes` object for `char *` and `void *`, an object of that type, an object or array of objects of type `w` for
`w *`, `None` for a pointer, nothing for a pointer. -/
inductive Passable (v : CTy) : Option (PyArg NObj) → Prop
  | num (x : Int) (sz : Nat) (sg : Bool) (h : IntTy abi sgn v sz sg) : Passable v (some (.obj (.int x)))
  | text (l : List Nat) (t : Str) (ht : t = c%"char" ∨ t = c%"void") (hv : v = .ptr (.base t)) : Passable v (some (.obj (.bytes l)))
  | same (c : Cls) (b : Nat) (hp : PlainTy v) (h : Mirrors types structs c v) : Passable v (some (.obj (.inst c b)))
  | target (w : CTy) (c : Cls) (b : Nat) (hv : v = .ptr w) (hp : Pointed w) (h : Mirrors types structs c w) : Passable v (some (.obj (.inst c b)))
  | elems (w : CTy) (n : Int) (c : Cls) (b : Nat) (hv : v = .ptr w) (hp : Pointed w) (h : Mirrors types structs c w) :
      Passable v (some (.obj (.inst (.arr n c) b)))
  | null (a : PyArg NObj) (ha : a = .none ∨ a = .null) (hp : PlainTy v) : Passable v (some a)
  | omitted (w : CTy) (hv : v = .ptr w) (hp : Pointed w) : Passable v none

/-- Python reads, at every path that leads to an integer of an object of C type `v`, the number that is there; `x` are the contents of the object,
`rd` what Python reads. -/
def ReadsNumbers (v : CTy) (x : Bytes) (rd : List Nat → Int → Prop) : Prop :=
  ∀ p o w sz sg r, PartAt cfg s abi v p o w → IntTy abi sgn w sz sg → Holds sz sg x o r → rd p r

/-- The numbers a call passes and gives back.  The function has C result `u` and parameters `cs`; the C function gets `cargs` and memory `m0` and
leaves the contents `cells` and the result `ret`; memory is `m` before the call and `m'` afterwards; `rd v p r` says that Python reads the number `r` at the path `p` of the object `v`. -/
structure NumbersRight (u : CTy) (cs : List (Option Str × CTy)) (args : List (PyArg NObj)) (kws : List (Str × PyArg NObj)) (cargs : List CArg)
    (m m0 m' : Mem Bytes) (cells : Nat → Bytes) (ret : Bytes) (ops : ValOps (PyV NObj Bytes)) (res : CRes (PyV NObj Bytes))
    (rd : PyV NObj Bytes → List Nat → Int → Prop) : Prop where
  arity : cargs.length = cs.length
  /-- Memory is not changed by the call itself. -/
  before : m.size ≤ m0.size ∧ ∀ b, b < m.size → m0.cell b = m.cell b
  /-- What the C function leaves in memory stays there. -/
  after : ∀ b, b < m0.size → m'.cell b = cells b
  /-- A number for a parameter of integer type arrives, converted to that type. -/
  given : ∀ (i : Nat) name v x sz sg, cs[i]? = some (name, v) → argFor cs args kws i = some (.obj (.int x)) → IntTy abi sgn v sz sg →
    ∃ bs r, cargs[i]? = some (.value bs) ∧ Converts sz sg x r ∧ StoredInt sz sg bs r
  /-- A `bytes` object for a `char *` or `void *` arrives as the address of its bytes, followed by a zero. -/
  text : ∀ (i : Nat) name t l, cs[i]? = some (name, .ptr (.base t)) → t = c%"char" ∨ t = c%"void" → argFor cs args kws i = some (.obj (.bytes l)) →
    cargs[i]? = some (.text (l ++ [0]))
  /-- `None` for a pointer is the null pointer. -/
  null : ∀ (i : Nat) name w a, cs[i]? = some (name, .ptr w) → argFor cs args kws i = some a → a = .none ∨ a = .null → PlainTy (.ptr w) →
    ∃ r : Bytes, cargs[i]? = some (.copy r) ∧ ∀ j, r j = 0
  /-- An object is passed by value, except for arrays. -/
  byValue : ∀ (i : Nat) name v c b, cs[i]? = some (name, v) → PlainTy v → (∀ n w, v ≠ .arr n w) → argFor cs args kws i = some (.obj (.inst c b)) →
    Mirrors types structs c v → cargs[i]? = some (.copy (m0.cell b))
  /-- An array for a parameter of that array type is passed by its address. -/
  array : ∀ (i : Nat) name n w c b, cs[i]? = some (name, .arr n w) → PlainTy (.arr n w) → argFor cs args kws i = some (.obj (.inst c b)) →
    Mirrors types structs c (.arr n w) → cargs[i]? = some (.addr b)
  /-- An object of type `w`, or an array of such objects, for a parameter of type `w *` is passed by its address. -/
  shared : ∀ (i : Nat) name w c b, cs[i]? = some (name, .ptr w) → Pointed w → argFor cs args kws i = some (.obj (.inst c b)) →
    (Mirrors types structs c w ∨ ∃ n c', c = .arr n c' ∧ Mirrors types structs c' w) → cargs[i]? = some (.addr b)
  /-- For an omitted parameter of type `w *`, the C function gets the address of a new object with all bytes zero, and the caller reads the numbers
  that it leaves there, by position and by name. -/
  omitted : ∀ (i : Nat) name w sz al, cs[i]? = some (name, .ptr w) → argFor cs args kws i = none → Pointed w →
    Layout cfg s abi false w sz al → ∃ b, cargs[i]? = some (.addr b) ∧ m.size ≤ b ∧ b < m0.size ∧ (∀ j, m0.cell b j = 0) ∧
      (Clear cfg types s w → ReadsNumbers cfg s abi sgn w (cells b) (fun p r =>
        ∃ x, res.get ops (.int i) = .ok x ∧ (∀ k, name = some k → res.get ops (.str k) = .ok x) ∧ rd x p r))
  /-- Different omitted parameters get different objects. -/
  apart : ∀ (i j : Nat) b, argFor cs args kws i = none → argFor cs args kws j = none → cargs[i]? = some (.addr b) → cargs[j]? = some (.addr b) → i = j
  /-- The numbers in the result of the C function are those of the value of the call. -/
  result : ∀ sz al, Layout cfg s abi false u sz al → Clear cfg types s u → ReadsNumbers cfg s abi sgn u ret (fun p r => rd (res.value ops) p r)

end

end Pyclib.Spec
