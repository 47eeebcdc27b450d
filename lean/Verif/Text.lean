import Verif.Basic
/-
Models of the Python string / regex primitives used by pyclibrary.
Restriction (stated in DESIGN.md): text is ASCII, so `\w`, `\s`, `\d`, `str.split()`, `str.strip()`
and `str.isdigit()` are given by their ASCII behaviour.
-/
namespace Pyclib

/-- Regex `\w` on ASCII. -/
def isWordC (c : Char) : Bool := c.isAlphanum || c = '_'

/-- Python whitespace (`str.isspace`, `\s`) on ASCII. -/
def isSpaceC (c : Char) : Bool :=
  c = ' ' || c = '\t' || c = '\n' || c = '\r' || c.toNat = 11 || c.toNat = 12 ||
  c.toNat = 28 || c.toNat = 29 || c.toNat = 30 || c.toNat = 31

/-- `str.lstrip()`. -/
def lstrip (s : Str) : Str := s.dropWhile isSpaceC

/-- `str.rstrip()`. -/
def rstrip (s : Str) : Str := (s.reverse.dropWhile isSpaceC).reverse

/-- `str.strip()`. -/
def strip (s : Str) : Str := rstrip (lstrip s)

/-- Auxiliary of `splitWs`: `cur` is the word being read (reversed). -/
def splitWsAux : Str → Str → List Str
  | [], cur => if cur = [] then [] else [cur.reverse]
  | c :: s, cur =>
    if isSpaceC c then
      if cur = [] then splitWsAux s [] else cur.reverse :: splitWsAux s []
    else splitWsAux s (c :: cur)

/-- `str.split()`: maximal runs of non-whitespace. -/
def splitWs (s : Str) : List Str := splitWsAux s []

/-- `str.split(c)` for a one-character separator (never returns `[]`). -/
def splitOnC (c : Char) : Str → List Str
  | [] => [[]]
  | d :: s =>
    if d = c then [] :: splitOnC c s
    else match splitOnC c s with
      | [] => [[d]]
      | w :: ws => (d :: w) :: ws

/-- `sep.join(parts)` for a one-character separator. -/
def joinC (c : Char) : List Str → Str
  | [] => []
  | [w] => w
  | w :: ws => w ++ c :: joinC c ws

/-- `text.split(c, 1)`, unpacked into two values; `none` if `c` does not occur
(Python then raises `ValueError` on unpacking). -/
def split1 (c : Char) : Str → Option (Str × Str)
  | [] => none
  | d :: s =>
    if d = c then some ([], s)
    else match split1 c s with
      | none => none
      | some (a, b) => some (d :: a, b)

/-- `s.startswith(p)`. -/
def startsWith : Str → Str → Bool
  | _, [] => true
  | [], _ :: _ => false
  | c :: s, d :: p => c = d && startsWith s p

/-- `sub in s` for strings. -/
def contains (s sub : Str) : Bool :=
  match s with
  | [] => startsWith [] sub
  | c :: s' => startsWith (c :: s') sub || contains s' sub

/-- `os.path.basename` (posix): the part after the last `/`. -/
def basename : Str → Str
  | [] => []
  | c :: s => if '/' ∈ s then basename s else if c = '/' then s else c :: s

/-- `str(n)` for a natural number: decimal digits. -/
def natDigits (n : Nat) : Str := (Nat.toDigits 10 n)

end Pyclib
