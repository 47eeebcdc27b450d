import Verif.Spec.TextWords
/-! Bodies of structs and unions in a text (specification of C96). -/
namespace Pyclib.Spec

/-- The text has a body for the tag `n` of the struct or union (`w`): the word and the tag with white space between them,
and an opening brace. -/
def HasBody (w n text : Str) : Prop :=
  ∃ a ws b : Str, text = a ++ (w ++ (ws ++ (n ++ b))) ∧ (∀ c, a.getLast? = some c → identChar c = false) ∧
    (ws ≠ [] ∧ ∀ c ∈ ws, c = ' ' ∨ c = '\n' ∨ c = '\t' ∨ c = '\r') ∧
    (∀ c, b.head? = some c → identChar c = false) ∧ Opens b

/-- A struct or union with members. -/
def Complete (v : DefVal) : Prop := ∃ ms p, v = .compound ms p ∧ ms ≠ []

/-- A C keyword of structs and unions. -/
def tagWord : Kind → Option Str
  | .structs => some c%"struct"
  | .unions => some c%"union"
  | _ => none

end Pyclib.Spec
