import Verif.Text
/-! Model of `CParser.find_text` (/repo/pyclibrary/c_parser.py:1732-1740). -/
namespace Pyclib

/-- The inner loop (c_parser.py:1737-1739): `i` is the number of the line in front. -/
def findLines (f t : Str) : Nat → List Str → List (Str × Nat × Str)
  | _, [] => []
  | i, l :: ls => (if contains l t then [(f, i, l)] else []) ++ findLines f t (i + 1) ls

/-- `CParser.find_text` (c_parser.py:1732-1740).  `files` is `self.files`; a header that could not be
found has no text (`None`, c_parser.py:756), on which `split` raises `AttributeError`. -/
def findText (t : Str) : List (Str × Option Str) → Except PyErr (List (Str × Nat × Str))
  | [] => .ok []
  | (_, none) :: _ => .error .attributeError
  | (f, some s) :: fs =>
    match findText t fs with
    | .error e => .error e
    | .ok r => .ok (findLines f t 0 (splitOnC '\n' s) ++ r)

end Pyclib
