import Verif.Spec.Reads
/-
Files that do not ask for certain definitions (specification of C103).
-/
namespace Pyclib.Spec

/-- The files ask for none of the definitions in `R`, whatever the state in which they are reached. -/
def AsksNone (w : Setup) (R : Kind → Str → Prop) : St → List (Str × Str) → Prop
  | _, [] => True
  | s, (path, text) :: fs => (∀ k n, R k n → ¬ FileReads w s path text k n) ∧
      ∀ s' out, processFile w s path text = .ok (s', out) → AsksNone w R s' fs

/-- The definitions in the tables. -/
def InTables (s : St) (k : Kind) (n : Str) : Prop := dget (s.defs k) n ≠ none

end Pyclib.Spec
