import Verif.Spec.Session
import Verif.Model.Result
/-
Specification for results of calls: what Python should see of C objects in memory.
-/
namespace Pyclib.Spec
open Pyclib

/-- `HasMember cfg s n tag`: the struct or union `tag` has a member `n`, possibly inside a member without a name. -/
inductive HasMember (cfg : Cfg) (s : Store DefVal) (n : Str) : Str → Prop
  | here (u : Bool) (tag : Str) (ms : List Member) (pack : Option Nat) (m : Member)
      (h : dget (s.defs (compKind u)) tag = some (.compound ms pack)) (hm : m ∈ ms) (hn : m.name = some n) : HasMember cfg s n tag
  | inside (u u' : Bool) (tag tag' : Str) (ms : List Member) (pack : Option Nat) (m : Member)
      (h : dget (s.defs (compKind u)) tag = some (.compound ms pack)) (hm : m ∈ ms) (hn : m.name = none)
      (ht : CMeaning cfg s m.type (.base (compWord u' ++ ' ' :: tag'))) (hi : HasMember cfg s n tag') : HasMember cfg s n tag

/-- A C type that is not a struct or union with a member `value`, and not an array of characters. -/
def Clear (cfg : Cfg) (types : Dict Str Str) (s : Store DefVal) : CTy → Prop
  | .base b => ∀ u tag, b = compWord u ++ ' ' :: tag → ¬ HasMember cfg s c%"value" tag
  | .arr _ (.base b) => dget types b ≠ some c%"c_char" ∧ dget types b ≠ some c%"c_wchar"
  | _ => True

section
variable {A R : Type} (types : Dict Str Str) (structs : Dict Str Nat) (cell : Nat → R)

/-- The Python object for the C object of class `c` in block `b`: a Python value for simple classes (also those of `char *`,
`wchar_t *`, `void *`), an object of the class in that very block for all others. -/
def shown : Cls → Nat → PyV A R
  | .prim p, b => .val p (cell b)
  | c, b => .inst c b

/-- The Python object for the result `r` of a C function with result type `v`. -/
inductive Returns (v : CTy) (r : R) : PyV A R → Prop
  | void (h : v = .base c%"void") : Returns v r .none
  | value (p : Str) (h : Mirrors types structs (.prim p) v) : Returns v r (.val p r)
  | object (c : Cls) (b : Nat) (h : Mirrors types structs c v) (hc : ∀ p, c ≠ .prim p) (hb : cell b = r) : Returns v r (.inst c b)

/-- The block of a ctypes object, or the one a pointer object made for the call points to. -/
def block : PyV A R → Option Nat
  | .inst _ b => some b
  | .ref _ b => some b
  | _ => none

/-- What the caller of a function with C result `u` and parameters `cs` should see: `m` is the memory before the call, `m0`
the memory the C function is called with, `m'` the memory afterwards; new objects are filled with `z`. -/
structure Outcome (cfg : Cfg) (s : Store DefVal) (u : CTy) (cs : List (Option Str × CTy)) (args : List (PyArg A)) (kws : List (Str × PyArg A))
    (z : R) (proc : CProc A R) (ops : ValOps (PyV A R)) (ext : A → PyV A R) (res : CRes (PyV A R)) (m m0 m' : Mem R) : Prop where
  /-- One argument per parameter. -/
  arity : res.args.length = cs.length
  /-- The C function finds what was in memory, and new objects. -/
  before : m.size ≤ m0.size ∧ ∀ b, b < m.size → m0.cell b = m.cell b
  /-- What it leaves there stays. -/
  after : ∀ b, b < m0.size → m'.cell b = (proc res.args m0).1 b
  /-- Objects made for the call do not share memory. -/
  apart : ∀ (i j : Nat) x y b, res.args[i]? = some x → res.args[j]? = some y → block x = some b → block y = some b → i = j
  /-- The value of the result is what the C function returned. -/
  result : Clear cfg types s u → Returns types structs m'.cell u (proc res.args m0).2 (res.value ops)
  /-- An object of the caller is passed, and read back. -/
  given : ∀ (i : Nat) x a, cs[i]? = some x → argFor cs args kws i = some (.obj a) →
    res.args[i]? = some (.given a) ∧ res.get ops (.int i) = .ok (ext a)
  /-- For an omitted parameter of type `w *` the C function gets a pointer to a new object of type `w`; by position and
  by name the caller reads what the C function left in it. -/
  omitted : ∀ (i : Nat) name w, cs[i]? = some (name, .ptr w) → argFor cs args kws i = none → (∀ b, w = .base b → specialPtr b = none) →
    ∃ c b, res.args[i]? = some (.ref c b) ∧ Mirrors types structs c w ∧ m.size ≤ b ∧ b < m0.size ∧ m0.cell b = z ∧
      (Clear cfg types s w → res.get ops (.int i) = .ok (shown m'.cell c b) ∧
        ∀ k, name = some k → res.get ops (.str k) = .ok (shown m'.cell c b))
  /-- Unpacking gives the value of the result and all arguments in order. -/
  unpack : (res.iter ops).1 = res.value ops ∧ (res.iter ops).2.length = cs.length ∧
    ∀ i, i < cs.length → (res.iter ops).2[i]? = some (res.get ops (.int (i : Nat)))
  /-- `auto()` gives the omitted ones in order. -/
  auto : ∃ gs : List Nat, gs.Pairwise (· < ·) ∧ (∀ i, i ∈ gs ↔ i < cs.length ∧ argFor cs args kws i = none) ∧
    res.auto ops = gs.mapM (fun (i : Nat) => res.get ops (.int i))

end

end Pyclib.Spec
