import Verif.Spec.Preproc
import Verif.Model.Decl
import Verif.Model.Comments
/-! Words of a text, and what can make `process_all` raise (specification of C80, C81). -/
namespace Pyclib

/-- The lines of a file, without comments, as the preprocessor sees them. -/
def ppLines (text : Str) : List Line := (splitOnC '\n' (joinLines (removeComments text))).map classify

/-- The text `s` contains the word `w`. -/
def WordIn (w s : Str) : Prop :=
  w ≠ [] ∧ w.all isWordC = true ∧ ∃ a b, s = a ++ (w ++ b) ∧ (∀ c, a.getLast? = some c → isWordC c = false) ∧
    ∀ c, b.head? = some c → isWordC c = false

end Pyclib

namespace Pyclib.Spec

/-- Characters of C identifiers, with the `$` that the grammar allows. -/
def identChar (c : Char) : Bool := c.isAlphanum || c == '_' || c == '$'

/-- `w` is a sequence of identifier characters that stands in the text with no such character next to it. -/
def HasWord (w text : Str) : Prop :=
  w.all identChar = true ∧ ∃ a b : Str, text = a ++ w ++ b ∧ (∀ c, a.getLast? = some c → identChar c = false) ∧
    ∀ c, b.head? = some c → identChar c = false

/-- `n` is an identifier that stands in the text. -/
def HasIdent (n text : Str) : Prop :=
  HasWord n text ∧ ∃ c r, n = c :: r ∧ (c.isAlpha || c == '_') = true

/-- The text starts with an opening brace; blanks and texts in quotation marks may stand in front of it. -/
inductive Opens : Str → Prop
  | brace (s : Str) : Opens ('{' :: s)
  | white (c : Char) (s : Str) : (c = ' ' ∨ c = '\n' ∨ c = '\t' ∨ c = '\r') → Opens s → Opens (c :: s)
  | quoted (q : Char) (m s : Str) : (q = '"' ∨ q = '\'') → Opens s → Opens (q :: (m ++ q :: s))

/-- The text has a struct, union or enum (`w`) without tag: an opening brace follows the word. -/
def HasAnon (w text : Str) : Prop :=
  ∃ a b : Str, text = a ++ w ++ b ∧ (∀ c, a.getLast? = some c → identChar c = false) ∧
    (∀ c, b.head? = some c → identChar c = false) ∧ Opens b

/-- `t` can be the tag of a struct, union or enum (`w`) of the text: an identifier of it, or a generated name if there is
one without tag. -/
def HasTag (w t text : Str) : Prop :=
  HasWord w text ∧ (HasIdent t text ∨ HasAnon w text ∧ ∃ i : Nat, t = c%"anon_" ++ w ++ natDigits i)

/-- The text has something that may define `n` in table `k`. -/
def MayDefine (text : Str) : Kind → Str → Prop
  | .types, n => (HasIdent n text ∧ HasWord c%"typedef" text) ∨
      ∃ w t, (w = c%"struct" ∨ w = c%"union" ∨ w = c%"enum") ∧ n = w ++ ' ' :: t ∧ HasTag w t text
  | .structs, n => HasTag c%"struct" n text
  | .unions, n => HasTag c%"union" n text
  | .enums, n => HasTag c%"enum" n text
  | .variables, n | .functions, n | .values, n => HasIdent n text
  | .macros, _ | .fnmacros, _ => False

/-- A line that is a `#pragma pack(pop...)`, possibly after expansion of macros. -/
def PopLine {E : Type} (sem : PPSem E) (l : Line) : Prop :=
  ∃ r env, l = .pragma r ∧ ∃ r', (r' = r ∨ r' = sem.expand env r) ∧ ∃ txt, packMatch r' = some txt ∧
    ((splitOnC ',' txt).map strip).head? = some c%"pop"

end Pyclib.Spec
