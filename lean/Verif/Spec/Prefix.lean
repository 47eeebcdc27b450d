import Verif.Model.Session
/-
Specification: what a name with an omitted prefix stands for (`prefix` of `CLibrary`, /repo/pyclibrary/c_library.py:131-132).
-/
namespace Pyclib.Spec
open Pyclib

section
variable (defs : Kind → Dict Str DefVal) (prefixes : List Str)

/-- `full` is one of the ways to complete `name`, and no other completion is defined. -/
def Stands (name full : Str) : Prop :=
  (full = name ∨ ∃ p ∈ prefixes, full = p ++ name) ∧
  ∀ m, (m = name ∨ ∃ p ∈ prefixes, m = p ++ name) → m ≠ full → ∀ k ∈ lookKinds, dhas (defs k) m = false

/-- No defined name is another one with a prefix in front. -/
def NoOverlap : Prop := ∀ k ∈ lookKinds, ∀ n, ∀ p ∈ prefixes, dhas (defs k) n = true → dhas (defs k) (p ++ n) = false

/-- The name itself is defined in the table, or it makes no sense at all. -/
def FullName (k : Kind) (n : Str) : Prop :=
  k ∉ lookKinds ∨ dhas (defs k) n = true ∨
  ∀ m, (m = n ∨ ∃ p ∈ prefixes, m = p ++ n) → dhas (defs k) m = false ∧ (k = .structs ∨ k = .unions ∨ k = .enums → dhas (defs .types) m = false)

/-- A lookup, and the same lookup with the full name. -/
inductive SameLook : Look → Look → Prop
  | attr (name full : Str) (h : Stands defs prefixes name full) : SameLook (.attr name) (.attr full)
  | call (k : Kind) (n : Str) (h : FullName defs prefixes k n) : SameLook (.call k n) (.call k n)

/-- A use, and the same use with the full name. -/
inductive SameUse {A : Type} : Use A → Use A → Prop
  | look (q q' : Look) (h : SameLook defs prefixes q q') : SameUse (.look q) (.look q')
  | invoke (name full : Str) (args : List (PyArg A)) (kws : List (Str × PyArg A)) (h : Stands defs prefixes name full) :
      SameUse (.invoke name args kws) (.invoke full args kws)
  | argType (name full : Str) (k : PyKey) (h : Stands defs prefixes name full) : SameUse (.argType name k) (.argType full k)

end

end Pyclib.Spec
