import Verif.Model.Grammar
/-
Specification: two texts that differ in white space only.
-/
namespace Pyclib.Spec
open Pyclib

/-- Characters of names and numbers. -/
def inWord (c : Char) : Bool := isWordC c || c = '$' || c = '.'

/-- The operators of two characters. -/
def opPairs : List (Char × Char) :=
  [('|', '|'), ('&', '&'), ('=', '='), ('!', '='), ('>', '='), ('<', '='), ('-', '>'), (':', ':'), ('<', '<'), ('>', '>'), ('+', '+'), ('-', '-')]

/-- Signs. -/
def isSign (c : Char) : Bool := c = '+' || c = '-'

/-- What is in front of white space, apart from the last character. -/
inductive Ctx where
  /-- Nothing of interest. -/
  | free
  /-- A sign behind `)` or `:`, or white space that pyparsing does not skip (form feeds, for instance). -/
  | sign
  /-- The `e` of a floating constant. -/
  | expo
  /-- The sign of the exponent. -/
  | expoSign
deriving DecidableEq

/-- The context after the character `c`, which follows `p` with the white space `w` between them. -/
def nextCtx (k : Ctx) (p : Char) (w : Str) (c : Char) : Ctx :=
  if isSpaceC c then .sign
  else if isSign c && (p = ')' || p = ':') then .sign
  else if (c = 'e' || c = 'E') && (p.isDigit || p = '.') && w.isEmpty then .expo
  else if isSign c && k = .expo && w.isEmpty then .expoSign
  else .free

/-- Characters that may stand next to each other or apart: not both in a word, not an operator, not parts of a floating constant. -/
def mayTouch (k : Ctx) (p c : Char) : Bool :=
  !(inWord p && inWord c) && !decide ((p, c) ∈ opPairs) && !(k = .expo && isSign c) && !(k = .expoSign && c.isDigit)

/-- Where a sign behind `)` or `:` is in front of a number, the white space between them is kept. -/
def kept (k : Ctx) (c : Char) : Bool := k = .sign && (c.isDigit || c = '.' || isSpaceC c)

/-- The white space `w` between the characters `p` and `c` may be replaced by `w'`. -/
def Gap (k : Ctx) (p : Char) (w w' : Str) (c : Char) : Prop :=
  w = w' ∨ (kept k c = false ∧ ((w ≠ [] ∧ w' ≠ []) ∨ mayTouch k p c = true))

/-- Quotation marks. -/
def isQuoteC (c : Char) : Bool := c = '"' || c = '\''

/-- The second text is the first one with other white space, after the character `p`.  String literals are the same in both, where they begin at a
quotation mark.  At each character the packing in force is the same; it is given as a function of the number of characters that follow. -/
inductive Respaced (pk pk' : Nat → Option Nat) : Ctx → Char → Str → Str → Prop
  | tail (k : Ctx) (p : Char) (w w' : Str) (hw : w.all isWhite = true) (hw' : w'.all isWhite = true) : Respaced pk pk' k p w w'
  | char (k : Ctx) (p : Char) (w w' : Str) (c : Char) (t t' : Str) (hw : w.all isWhite = true) (hw' : w'.all isWhite = true) (hc : isWhite c = false)
      (hg : Gap k p w w' c) (hk : pk (c :: t).length = pk' (c :: t').length)
      (hq : isQuoteC c = true → matchQuoted c t = none ∧ matchQuoted c t' = none) (h : Respaced pk pk' (nextCtx k p w c) c t t') :
      Respaced pk pk' k p (w ++ c :: t) (w' ++ c :: t')
  | literal (k : Ctx) (p : Char) (w w' : Str) (c : Char) (t t' a r r' : Str) (hw : w.all isWhite = true) (hw' : w'.all isWhite = true)
      (hc : isQuoteC c = true) (hg : Gap k p w w' c) (hk : pk (c :: t).length = pk' (c :: t').length)
      (hq : matchQuoted c t = some (a, r)) (hq' : matchQuoted c t' = some (a, r')) (h : Respaced pk pk' .free c t t') (hr : Respaced pk pk' .free c r r') :
      Respaced pk pk' k p (w ++ c :: t) (w' ++ c :: t')

end Pyclib.Spec
