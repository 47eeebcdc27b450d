import Verif.Model.Macro
/-
Specification of macro expansion: a line is a sequence of words, other characters and string literals.
-/
namespace Pyclib.Spec
open Pyclib

/-- Pieces of a line. -/
inductive Piece where
  /-- a maximal run of word characters -/
  | word (w : Str)
  /-- any other character -/
  | chr (c : Char)
  /-- a string literal: the contents between the quotes -/
  | str (s : Str)

/-- Text of a piece. -/
def Piece.text : Piece → Str
  | .word w => w
  | .chr c => [c]
  | .str s => '"' :: (s ++ ['"'])

/-- Text of a line. -/
def text (ps : List Piece) : Str := ps.flatMap Piece.text

/-- `ps` is the reading of its text: words are non-empty, made of word characters and do not touch;
another character is no word character, and if it is a quote then no quote follows (a quote that closes
nothing); string contents have no quote and do not end with a backslash. -/
inductive LineOk : List Piece → Prop where
  | nil : LineOk []
  | word (w : Str) (ps : List Piece) (ne : w ≠ []) (wd : ∀ c ∈ w, isWordC c = true)
      (sep : ∀ w' qs, ps ≠ .word w' :: qs) (tl : LineOk ps) : LineOk (.word w :: ps)
  | chr (c : Char) (ps : List Piece) (nw : isWordC c = false) (q : c = '"' → '"' ∉ text ps)
      (tl : LineOk ps) : LineOk (.chr c :: ps)
  | str (s : Str) (ps : List Piece) (nq : '"' ∉ s) (esc : s.getLast? ≠ some '\\')
      (tl : LineOk ps) : LineOk (.str s :: ps)

/-- The line contains no string literal. -/
def NoStr (ps : List Piece) : Prop := ∀ s, Piece.str s ∉ ps

/-- Word-by-word replacement, everything else untouched. -/
def replaceWords (f : Str → Str) (ps : List Piece) : Str :=
  ps.flatMap fun p => match p with
    | .word w => f w
    | p => p.text

/-- The words of a text: maximal runs of word characters. -/
def IsWord (s w : Str) : Prop :=
  ∃ a b, s = a ++ w ++ b ∧ w ≠ [] ∧ (∀ c ∈ w, isWordC c = true) ∧
    (∀ c ∈ a.getLast?, isWordC c = false) ∧ (∀ c ∈ b.head?, isWordC c = false)

/-- The argument that belongs to a parameter: first parameter of that name. -/
def argOf : List Str → List Str → Str → Option Str
  | p :: ps, a :: as, w => if p = w then some a else argOf ps as w
  | _, _, _ => none

/-- An identifier. -/
def IsIdent (s : Str) : Prop := ∃ c r, s = c :: r ∧ isIdentStart c = true ∧ ∀ d ∈ r, isWordC d = true

/-- Events that change the macro tables. -/
inductive MacroOp where
  | define (name rest : Str)
  | undef (name : Str)

/-- Name an event is about. -/
def MacroOp.name : MacroOp → Str
  | .define n _ => n
  | .undef n => n

end Pyclib.Spec
