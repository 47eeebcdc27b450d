import Verif.Model.Tabs
import Verif.Spec.Respace
import Verif.Spec.Macro
/-
Specification: texts in which tabs are layout only.
-/
namespace Pyclib.Spec
open Pyclib

/-- No tab is in a literal, also when the text is read from inside a literal, and none is between a sign behind
`)` or `:` and a number (see C59). -/
inductive TabSafe : Ctx → Char → Str → Prop
  | tail (k : Ctx) (p : Char) (w : Str) (hw : w.all isWhite = true) : TabSafe k p w
  | char (k : Ctx) (p : Char) (w : Str) (c : Char) (t : Str) (hw : w.all isWhite = true) (hc : isWhite c = false)
      (hk : '\t' ∈ w → kept k c = false) (hq : isQuoteC c = true → matchQuoted c t = none)
      (h : TabSafe (nextCtx k p w c) c t) : TabSafe k p (w ++ c :: t)
  | literal (k : Ctx) (p : Char) (w : Str) (c : Char) (t a r : Str) (hw : w.all isWhite = true) (hc : isQuoteC c = true)
      (hk : '\t' ∈ w → kept k c = false) (hq : matchQuoted c t = some (a, r)) (ha : '\t' ∉ a)
      (h : TabSafe .free c t) (hr : TabSafe .free c r) : TabSafe k p (w ++ c :: t)

/-- Blanks and tabs. -/
def TabBlank (s : Str) : Prop := ∀ c ∈ s, c = ' ' ∨ c = '\t'

/-- Tabs only at the ends. -/
def TabEnds (r : Str) : Prop := ∃ pre core post, r = pre ++ core ++ post ∧ TabBlank pre ∧ '\t' ∉ core ∧ TabBlank post

/-- The parameters of a macro behind the opening parenthesis. -/
inductive ParamText : List Str → Str → Prop
  | last (w x w' : Str) (hw : TabBlank w) (hx : IsIdent x) (hw' : TabBlank w') : ParamText [x] (w ++ (x ++ (w' ++ [')'])))
  | more (w x w' t : Str) (ps : List Str) (hw : TabBlank w) (hx : IsIdent x) (hw' : TabBlank w') (h : ParamText ps t) :
      ParamText (x :: ps) (w ++ (x ++ (w' ++ ',' :: t)))

/-- The text behind the name in a definition: tabs only at the ends and around the parameters. -/
inductive TabDef (names : List Str) : Str → Prop
  | object (r : Str) (h : TabEnds r) : TabDef names r
  | func (w t r : Str) (ps : List Str) (hw : TabBlank w) (ht : ParamText ps t) (hp : ∀ p ∈ ps, p ∈ names) (h : TabEnds r) :
      TabDef names (w ++ '(' :: (t ++ r))

end Pyclib.Spec
