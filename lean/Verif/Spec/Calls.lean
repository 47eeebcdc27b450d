import Verif.Spec.Classes
/-
Specification for functions of a header as seen from Python: which C types the wrapped function takes and
returns.
-/
namespace Pyclib.Spec
open Pyclib

/-- What a header says about a type that the library asks a class for, and the C type it stands for. -/
structure AskOk (cfg : Cfg) (types : Dict Str Str) (s : Store DefVal) (t : CType) (v : CTy) : Prop where
  shapes : ShapesOk cfg s false t
  finite : FiniteParams ⟨cfg, s.defs, types⟩ t
  means : CMeaning cfg s t v
  build : Buildable types (DefinedTag s) v

/-- The parameter of `f(void)`. -/
def VoidParam (p : Param) : Prop := p.2.1.spec = c%"void" ∧ p.2.1.mods = []

/-- The parameters of a function with their C types, `void` left out; no other parameter is `void`. -/
inductive ParamsOk (cfg : Cfg) (types : Dict Str Str) (s : Store DefVal) : List Param → List (Option Str × CTy) → Prop
  | nil : ParamsOk cfg types s [] []
  | void (p : Param) (ps : List Param) (cs : List (Option Str × CTy)) (hp : VoidParam p) (hs : ParamsOk cfg types s ps cs) :
      ParamsOk cfg types s (p :: ps) cs
  | cons (p : Param) (ps : List Param) (v : CTy) (cs : List (Option Str × CTy)) (hp : ¬ VoidParam p)
      (h : AskOk cfg types s p.2.1 v) (hv : v ≠ .base c%"void") (hs : ParamsOk cfg types s ps cs) :
      ParamsOk cfg types s (p :: ps) ((p.1, v) :: cs)

/-- A function without calling convention in the type of its result. -/
def NoConv (t : CType) : Prop := ∀ c ∈ [c%"__stdcall", c%"__cdecl"], t.spec ≠ c ∧ .sym c ∉ t.mods

/-- The table of simple types gives `c_char` and `c_wchar` exactly to the types whose pointers have a class of
their own. -/
def PtrTable (types : Dict Str Str) : Prop :=
  ∀ s p, dget types s = some p → specialPtr s = if p = c%"c_char" then some c%"c_char_p"
    else if p = c%"c_wchar" then some c%"c_wchar_p" else none

/-- The class of an object made for an omitted argument of C type `v`: the class of `v`.  But for a plain
pointer to `char`, `wchar_t` or `void` it is a pointer to the class of `v`. -/
def AutoOk (types : Dict Str Str) (structs : Dict Str Nat) (c : Cls) (v : CTy) : Prop :=
  (∃ s p, v = .ptr (.base s) ∧ specialPtr s = some p ∧ c = .ptr (.prim p)) ∨
  ((∀ s, v = .ptr (.base s) → specialPtr s = none) ∧ Mirrors types structs c v)

end Pyclib.Spec
