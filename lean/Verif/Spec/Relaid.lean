import Verif.Spec.Respace
import Verif.Spec.File
/-
Specification: two header files with the same directives, between which the text is laid out differently.
-/
namespace Pyclib.Spec
open Pyclib

/-- The first character that is not white space is no digit, point or sign, nor white space that pyparsing does not skip. -/
def Starts (t : Str) : Prop :=
  ∀ w c r, t = w ++ c :: r → w.all isWhite = true → isWhite c = false →
    c.isDigit = false ∧ c ≠ '.' ∧ isSign c = false ∧ isSpaceC c = false

/-- The second text is the first one with other white space; both may stand between other lines. -/
def SameText (t t' : Str) : Prop :=
  Respaced (fun _ => none) (fun _ => none) .free ' ' t t' ∧ Starts t ∧ t.getLast? ≠ some '\\' ∧ t'.getLast? ≠ some '\\'

/-- Directives other than `#pragma pack`; definitions lead from tables with the property `P` to tables with this property. -/
inductive IsDir {E : Type} (sem : PPSem E) (P : E → Prop) : Str → Prop
  | define (t rest x body : Str) : Directive t c%"define" rest → Named rest x body →
      (∀ e, P e → P (sem.define e x (sem.expand e body))) → IsDir sem P t
  | undef (t rest x after : Str) : Directive t c%"undef" rest → Named rest x after → (∀ e, P e → P (sem.undef e x)) → IsDir sem P t
  | pragma (t rest : Str) : Directive t c%"pragma" rest → (∀ e, P e → NotPack (sem.expand e rest)) → IsDir sem P t
  | other (t kw rest : Str) : Directive t kw rest → kw ≠ [] → (∀ c ∈ kw, c.isAlpha = true) →
      kw ∉ [c%"define", c%"undef", c%"pragma"] → IsDir sem P t

/-- Parts of two files. -/
inductive Part where
  /-- A directive that is in both files. -/
  | dir (t : Str)
  /-- Lines of text of the first and of the second file. -/
  | code (ls ls' : List Str)

/-- The lines of the first file. -/
def Part.lines : Part → List Str
  | .dir t => [t]
  | .code ls _ => ls

/-- The lines of the second file. -/
def Part.lines' : Part → List Str
  | .dir t => [t]
  | .code _ ls' => ls'

/-- Directives are directives, lines of text are not; whatever macros there are, if only the tables have the property `P`, the lines of text
of both files differ in white space only after the replacement of macros. -/
def Part.Ok {E : Type} (sem : PPSem E) (P : E → Prop) : Part → Prop
  | .dir t => IsDir sem P t
  | .code ls ls' => ls ≠ [] ∧ ls' ≠ [] ∧ (∀ l ∈ ls ++ ls', ∀ a r, l = a ++ '#' :: r → ∃ c ∈ a, isSpaceC c = false) ∧
      ∀ e, P e → SameText (joinC '\n' (ls.map (sem.expand e))) (joinC '\n' (ls'.map (sem.expand e)))

/-- The two texts are files with the same directives and the same text but for comments, continued lines, and white space. -/
def Relaid {E : Type} (sem : PPSem E) (P : E → Prop) (text text' : Str) : Prop :=
  ∃ ps : List Part, IsSource text (ps.flatMap Part.lines) ∧ IsSource text' (ps.flatMap Part.lines') ∧ ∀ p ∈ ps, p.Ok sem P

/-- Pairs of files with the same names that are laid out differently. -/
inductive RelaidAll {E : Type} (sem : PPSem E) (P : E → Prop) : List (Str × Str) → List (Str × Str) → Prop
  | nil : RelaidAll sem P [] []
  | cons (path text text' : Str) (fs fs' : List (Str × Str)) : Relaid sem P text text' → RelaidAll sem P fs fs' →
      RelaidAll sem P ((path, text) :: fs) ((path, text') :: fs')

/-- No word of the line is one of the names; nor is its last character, if there are quotation marks. -/
def FreeOf (N : Str → Prop) (line : Str) : Prop :=
  (∀ x, IsWord line x → ¬ N x) ∧ (line.count '"' ≤ 1 ∨ ∀ c ∈ line.getLast?, ¬ N [c])

/-- Parts of files in which the text is free of names of macros, which are among `N`. -/
def Part.Plain (N : Str → Prop) : Part → Prop
  | .dir t => (∃ rest x body, Directive t c%"define" rest ∧ Named rest x body ∧ N x) ∨
      (∃ rest x after, Directive t c%"undef" rest ∧ Named rest x after) ∨
      (∃ rest, Directive t c%"pragma" rest ∧ FreeOf N rest ∧ NotPack rest) ∨
      ∃ kw rest, Directive t kw rest ∧ kw ≠ [] ∧ (∀ c ∈ kw, c.isAlpha = true) ∧ kw ∉ [c%"define", c%"undef", c%"pragma"]
  | .code ls ls' => ls ≠ [] ∧ ls' ≠ [] ∧ (∀ l ∈ ls ++ ls', ∀ a r, l = a ++ '#' :: r → ∃ c ∈ a, isSpaceC c = false) ∧
      (∀ l ∈ ls ++ ls', FreeOf N l) ∧ SameText (joinC '\n' ls) (joinC '\n' ls')

end Pyclib.Spec
