import Verif.Basic
/-! Specification of lines of a text, for C83. -/
namespace Pyclib.Spec

/-- `l` is line number `i` (from 0) of the text `s`: what stands between two line feeds. -/
def IsLine (s : Str) (i : Nat) (l : Str) : Prop :=
  ∃ a b, s = a ++ l ++ b ∧ '\n' ∉ l ∧ (a = [] ∨ a.getLast? = some '\n') ∧ a.count '\n' = i ∧
    (b = [] ∨ b.head? = some '\n')

/-- `t` stands somewhere in `l`. -/
def Occurs (t l : Str) : Prop := ∃ a b, l = a ++ t ++ b

end Pyclib.Spec
