import Verif.Spec.Reads
import Verif.Spec.Source
import Verif.Spec.Macro
/-
Macros that are given to the constructor (specification of C101).
-/
namespace Pyclib.Spec

/-- The files ask for no value of the names in `N`, whatever the state in which they are reached. -/
def AsksNoValue (w : Setup) (N : Str → Prop) : St → List (Str × Str) → Prop
  | _, [] => True
  | s, (path, text) :: fs => (∀ n, N n → ¬ FileReads w s path text .values n) ∧
      ∀ s' out, processFile w s path text = .ok (s', out) → AsksNoValue w N s' fs

/-- A line `#define x body` whose body does not mention the names in `names` and does not begin with a parenthesis. -/
def DefLine (names : List Str) (line x body : Str) : Prop :=
  ∃ r, IsLeaf line (.define x r) ∧ (∀ n ∈ names, ¬ IsWord r n) ∧ (r.count '"' ≤ 1 ∨ ∀ c ∈ r.getLast?, [c] ∉ names) ∧
    strip r = body ∧ body.head? ≠ some '('

/-- One of these names, in the table of values. -/
def ValueOf (N : Str → Prop) (k : Kind) (n : Str) : Prop := k = .values ∧ N n

end Pyclib.Spec
