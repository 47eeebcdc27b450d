import Verif.Text
/-
Model of `CParser.remove_comments` (/repo/pyclibrary/c_parser.py:802-816) at character level.

`transformString` of `quotedString | cStyleComment.suppress() | ("//" + restOfLine).suppress()`:
pyparsing scans the text from left to right; at every position it tries the alternatives, copies what
matched (or drops it when suppressed) and continues after the match; when nothing matches it copies one
character.  (White space skipping before a match does not matter: skipped white space is copied.)
-/
namespace Pyclib

/-- `[0-9a-fA-F]`. -/
def isHexC (c : Char) : Bool :=
  c.isDigit || (decide ('a' ≤ c) && decide (c ≤ 'f')) || (decide ('A' ≤ c) && decide (c ≤ 'F'))

/-- The greedy body of pyparsing's `quotedString`,
`(?:[^q\n\r\\]|(?:qq)|(?:\\(?:[^x]|x[0-9a-fA-F]+)))*`, for the quote `q`: consumed text and rest.
(After `\x` only the first hexadecimal digit is consumed as part of the escape; further ones are
ordinary characters.) -/
def qBody (q : Char) : Str → Str × Str
  | [] => ([], [])
  | [c] => if c = q || c = '\n' || c = '\r' || c = '\\' then ([], [c]) else ([c], [])
  | c :: d :: s =>
    if c = '\\' then
      if d = 'x' then
        match s with
        | h :: s' =>
          if isHexC h then let r := qBody q s'; (c :: d :: h :: r.1, r.2) else ([], c :: d :: h :: s')
        | [] => ([], [c, d])
      else let r := qBody q s; (c :: d :: r.1, r.2)
    else if c = q then
      if d = q then let r := qBody q s; (c :: d :: r.1, r.2) else ([], c :: d :: s)
    else if c = '\n' || c = '\r' then ([], c :: d :: s)
    else let r := qBody q (d :: s); (c :: r.1, r.2)

/-- `Combine(Regex(q + body) + q)` after the opening quote: the matched text (with the closing quote)
and the rest. -/
def matchQuoted (q : Char) (s : Str) : Option (Str × Str) :=
  match qBody q s with
  | (b, c :: r) => if c = q then some (b ++ [q], r) else none
  | (_, []) => none

/-- `Regex(r"/\*(?:[^*]|\*(?!/))*") + "*/"` after the opening `/*`: the rest after the first `*/`. -/
def blockEnd : Str → Option Str
  | '*' :: '/' :: s => some s
  | _ :: s => blockEnd s
  | [] => none

/-- What `restOfLine` leaves: everything from the newline on. -/
def lineEnd (s : Str) : Str := s.dropWhile (· ≠ '\n')

/-- The scanning loop; every step consumes at least one character, so `s.length` steps are enough. -/
def rcLoop : Nat → Str → Str
  | 0, s => s
  | _ + 1, [] => []
  | n + 1, '/' :: '*' :: s =>
    match blockEnd s with
    | some r => rcLoop n r
    | none => '/' :: rcLoop n ('*' :: s)
  | n + 1, '/' :: '/' :: s => rcLoop n (lineEnd s)
  | n + 1, c :: s =>
    if c = '"' || c = '\'' then
      match matchQuoted c s with
      | some (b, r) => c :: b ++ rcLoop n r
      | none => c :: rcLoop n s
    else c :: rcLoop n s

/-- `remove_comments` on the text of a file (c_parser.py:802-816). -/
def removeComments (s : Str) : Str := rcLoop s.length s

end Pyclib
