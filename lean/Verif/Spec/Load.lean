import Verif.Model.Load
/-
Specification of textual replacements: all occurrences of a string, from left to right, without overlaps.
-/
namespace Pyclib.Spec

open Pyclib

/-- `Replaced s r t u`: `u` is `t` with all occurrences of `s` replaced by `r`, the leftmost one first. -/
inductive Replaced (s r : Str) : Str → Str → Prop
  | none (t : Str) : (∀ a b, t ≠ a ++ s ++ b) → Replaced s r t t
  | some (a t u : Str) : (∀ p q, a ++ s ++ t = p ++ s ++ q → a.length ≤ p.length) → Replaced s r t u →
      Replaced s r (a ++ s ++ t) (a ++ r ++ u)

/-- One replacement after the other. -/
inductive ReplacedAll : List (Str × Str) → Str → Str → Prop
  | nil (t : Str) : ReplacedAll [] t t
  | cons (s r t u v : Str) (reps : List (Str × Str)) : Replaced s r t u → ReplacedAll reps u v →
      ReplacedAll ((s, r) :: reps) t v

/-- Characters with a meaning in regular expressions (documentation of the module `re`). -/
def metaChars : List Char := ['.', '^', '$', '*', '+', '?', '{', '}', '[', ']', '\\', '|', '(', ')']

/-- A string that is not a regular expression. -/
def PlainKey (s : Str) : Prop := s ≠ [] ∧ ∀ c ∈ s, c ∉ metaChars

/-- A replacement of a string by a string. -/
def PlainRep (x : Str × Str) : Prop := PlainKey x.1 ∧ '\\' ∉ x.2

/-- The characters that `re.escape` marks with a backslash. -/
def escaped : List Char :=
  ['(', ')', '[', ']', '{', '}', '?', '*', '+', '-', '|', '^', '$', '\\', '.', '&', '~', '#', ' ', '\t', '\n', '\r',
   Char.ofNat 11, Char.ofNat 12]

/-- `re.escape(s)`. -/
def escape (s : Str) : Str := s.flatMap fun c => if c ∈ escaped then ['\\', c] else [c]

/-- A text with the line ends of Windows. -/
def crlf (s : Str) : Str := s.flatMap fun c => if c = '\n' then ['\r', '\n'] else [c]

/-- A text with the line ends of old Macintosh computers. -/
def cr (s : Str) : Str := s.map fun c => if c = '\n' then '\r' else c

end Pyclib.Spec
