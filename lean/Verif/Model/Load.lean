import Verif.Model.Store
/-
Model of `CParser.load_file` (/repo/pyclibrary/c_parser.py:728-771), the text that is kept for parsing: the
file is read in text mode, and every replacement asked for is made with `re.sub`, in the order of the dictionary.

`re.sub` is modelled for patterns of ordinary characters, the point and escaped characters other than letters and
digits, and for replacements without backslashes.  Every other pattern or replacement is left to the parameter `rx`,
which stands for the module `re`.  Simplifications: the decoding of the file is not modelled, a file is a text.
-/
namespace Pyclib

/-- `open(path, "r").read()` (c_parser.py:757-758): line ends are translated. -/
def readText : Str → Str
  | '\r' :: '\n' :: s => '\n' :: readText s
  | '\r' :: s => '\n' :: readText s
  | c :: s => c :: readText s
  | [] => []

/-- One element of a regular expression: a character or the point. -/
inductive ReAtom where
  | chr (c : Char)
  | any
  deriving DecidableEq

/-- Characters with a meaning in regular expressions, except for the point and the backslash. -/
def reSpecial : List Char := ['^', '$', '*', '+', '?', '{', '}', '[', ']', '|', '(', ')']

/-- The elements of a regular expression, if it is among those that are modelled. -/
def reParse : Str → Option (List ReAtom)
  | [] => some []
  | '\\' :: c :: s => if c.isAlphanum then none else (reParse s).map (.chr c :: ·)
  | '\\' :: [] => none
  | '.' :: s => (reParse s).map (.any :: ·)
  | c :: s => if c ∈ reSpecial then none else (reParse s).map (.chr c :: ·)

/-- The rest of the text after a match at its beginning. -/
def reMatch : List ReAtom → Str → Option Str
  | [], s => some s
  | .chr c :: ps, d :: s => if d = c then reMatch ps s else none
  | .any :: ps, d :: s => if d = '\n' then none else reMatch ps s
  | _ :: _, [] => none

/-- All matches from left to right, for a pattern that is not empty.  Every round reads a character. -/
def reSubF (ps : List ReAtom) (r : Str) : Nat → Str → Str
  | 0, s => s
  | _ + 1, [] => []
  | n + 1, c :: s =>
    match reMatch ps (c :: s) with
    | some t => r ++ reSubF ps r n t
    | none => c :: reSubF ps r n s

/-- `re.sub(p, r, s)`; the empty pattern matches between any two characters. -/
def reSub (rx : Str → Str → Str → Except PyErr Str) (p r s : Str) : Except PyErr Str :=
  match reParse p with
  | none => rx p r s
  | some ps =>
    if '\\' ∈ r then rx p r s
    else if ps = [] then .ok (r ++ s.flatMap (fun c => c :: r))
    else .ok (reSubF ps r s.length s)

/-- The loop over the replacements (c_parser.py:760-762). -/
def replaceAll (rx : Str → Str → Str → Except PyErr Str) : List (Str × Str) → Str → Except PyErr Str
  | [], s => .ok s
  | (p, r) :: reps, s =>
    match reSub rx p r s with
    | .ok s => replaceAll rx reps s
    | .error e => .error e

/-- The text kept for a file with the given contents (c_parser.py:757-762). -/
def loadText (rx : Str → Str → Str → Except PyErr Str) (reps : Option (List (Str × Str))) (content : Str) :
    Except PyErr Str :=
  match reps with
  | none => .ok (readText content)
  | some reps => replaceAll rx reps (readText content)

end Pyclib
