import Verif.Model.Grammar
import Mathlib.Data.Int.Bitwise
/-
Model of the evaluation of C expressions: `CParser.eval` (/repo/pyclibrary/c_parser.py:1658-1665) and the
string case of `CParser.eval_expr` (1633-1656).

`eval` strips the text, lets pyparsing replace numbers (suffixes are dropped), string literals (unchanged)
and casts (dropped), and hands the result to Python's `eval` with `defs["values"]` as local names.

Python's `eval` is modelled for integers, names, unary `+ - ~`, binary `| ^ & << >> + - * %`, comparisons
(not chains of them) and parentheses; for string literals without backslashes and for decimal fractions; and for the quotient of two
integer expressions.  Every other text is left to the parameter `py`, which stands for the Python interpreter:
whatever it gives.  Simplifications: `True` and `False` are the numbers 1 and 0; shifts and products never run out of memory; the struct, union and
enum specifiers inside a cast are read with empty tables, and what they record is lost.
-/
namespace Pyclib

/-- `cast = (lparen + type_spec + abstract_declarator + rparen).suppress()` (c_parser.py:1661). -/
def evalCast (g : Gram) (x : Pos) : Option Pos :=
  match lit '(' x with
  | none => none
  | some y =>
    match (gram g (y.rest.length + 1)).type Store.empty y with
    | (_, none) => none
    | (s, some (_, z)) =>
      match (gram g (z.rest.length + 1)).abs s z with
      | (_, none) => none
      | (_, some (_, u)) => delim ')' u

/-- `(quotedString | number | cast).transformString(expr)` (c_parser.py:1662).  Every round reads a
character. -/
def evalScan (g : Gram) : Nat → Pos → Str
  | 0, _ => []
  | n + 1, x =>
    match x.rest with
    | [] => []
    | c :: s =>
      if isWhite c then c :: evalScan g n ⟨c, s⟩
      else
        match quotedTok x with
        | some (t, y) => t ++ evalScan g n y
        | none =>
          match numberP x with
          | some (t, y) => t ++ evalScan g n y
          | none =>
            match evalCast g x with
            | some y => evalScan g n y
            | none => c :: evalScan g n ⟨c, s⟩

/-- The text that `CParser.eval` gives to Python (c_parser.py:1660-1662). -/
def evalText (g : Gram) (s : Str) : Str := evalScan g ((strip s).length + 1) ⟨' ', strip s⟩

/-- Binary operators of Python on integers that are modelled. -/
inductive KOp where
  | or | xor | and | shl | shr | add | sub | mul | mod
  | eq | ne | lt | gt | le | ge
  deriving DecidableEq

/-- Tokens of Python expressions; `bad` is a number like `010`, which Python rejects. -/
inductive KTok where
  | num (n : Nat)
  | id (w : Str)
  | op (o : KOp)
  | tilde
  | lp | rp
  | bad

/-- The value of a digit. -/
def kDigit (c : Char) : Nat :=
  if c.isDigit then c.toNat - '0'.toNat
  else if 'a' ≤ c ∧ c ≤ 'f' then c.toNat - 'a'.toNat + 10
  else c.toNat - 'A'.toNat + 10

/-- `int(ds, base)`. -/
def kDigits (base : Nat) (ds : Str) : Nat := ds.foldl (fun n c => n * base + kDigit c) 0

/-- A decimal number: superfluous zeros in front are an error. -/
def decKTok (ds : Str) : KTok :=
  if ds.head? = some '0' ∧ ds.any (· ≠ '0') = true then .bad else .num (kDigits 10 ds)

/-- After a number comes neither a letter nor a point. -/
def numStop (s : Str) : Bool := !(s.head?.any (fun c => isWordC c || c = '.'))

/-- Tokens of a Python expression; `none` if it contains others than the modelled ones.  Every round reads
a character. -/
def kTok : Nat → Str → Option (List KTok)
  | 0, _ => none
  | _ + 1, [] => some []
  | n + 1, c :: s =>
    if c = ' ' ∨ c = '\t' then kTok n s
    else if c.isDigit then
      if c = '0' ∧ (s.head? = some 'x' ∨ s.head? = some 'X') then
        let ds := (s.drop 1).takeWhile isHexC
        let r := (s.drop 1).dropWhile isHexC
        if ds ≠ [] ∧ numStop r = true then (kTok n r).map (.num (kDigits 16 ds) :: ·) else none
      else
        let r := s.dropWhile Char.isDigit
        if numStop r = true then (kTok n r).map (decKTok (c :: s.takeWhile Char.isDigit) :: ·) else none
    else if isIdentStart c then
      (kTok n (s.dropWhile isWordC)).map (.id (c :: s.takeWhile isWordC) :: ·)
    else if c = '(' then (kTok n s).map (.lp :: ·)
    else if c = ')' then (kTok n s).map (.rp :: ·)
    else if c = '~' then (kTok n s).map (.tilde :: ·)
    else if c = '|' then (kTok n s).map (.op .or :: ·)
    else if c = '^' then (kTok n s).map (.op .xor :: ·)
    else if c = '&' then (kTok n s).map (.op .and :: ·)
    else if c = '+' then (kTok n s).map (.op .add :: ·)
    else if c = '-' then (kTok n s).map (.op .sub :: ·)
    else if c = '%' then (kTok n s).map (.op .mod :: ·)
    else if c = '*' then if s.head? = some '*' then none else (kTok n s).map (.op .mul :: ·)
    else if c = '<' then
      if s.head? = some '<' then (kTok n (s.drop 1)).map (.op .shl :: ·)
      else if s.head? = some '=' then (kTok n (s.drop 1)).map (.op .le :: ·)
      else (kTok n s).map (.op .lt :: ·)
    else if c = '>' then
      if s.head? = some '>' then (kTok n (s.drop 1)).map (.op .shr :: ·)
      else if s.head? = some '=' then (kTok n (s.drop 1)).map (.op .ge :: ·)
      else (kTok n s).map (.op .gt :: ·)
    else if c = '=' then if s.head? = some '=' then (kTok n (s.drop 1)).map (.op .eq :: ·) else none
    else if c = '!' then if s.head? = some '=' then (kTok n (s.drop 1)).map (.op .ne :: ·) else none
    else none

/-- The reserved words of Python. -/
def pyKeywords : List Str :=
  [c%"False", c%"None", c%"True", c%"and", c%"as", c%"assert", c%"async", c%"await", c%"break", c%"class",
   c%"continue", c%"def", c%"del", c%"elif", c%"else", c%"except", c%"finally", c%"for", c%"from", c%"global",
   c%"if", c%"import", c%"in", c%"is", c%"lambda", c%"nonlocal", c%"not", c%"or", c%"pass", c%"raise",
   c%"return", c%"try", c%"while", c%"with", c%"yield", c%"__debug__"]

/-- What a name stands for in the table of values: `none` if Python's own names come into play or the
value is not an integer or `None`; `some none` for `None`. -/
def nameVal (tbl : Dict Str DefVal) (w : Str) : Option (Option Int) :=
  match dget tbl w with
  | some (.value (.int i)) => some (some i)
  | some (.value .none) => some none
  | _ => none

/-- The expression is within the modelled part of Python: no calls, no empty parentheses, no reserved
words, and all names are integers or `None`. -/
def kPlain (tbl : Dict Str DefVal) : List KTok → Bool
  | .num _ :: .lp :: _ => false
  | .rp :: .lp :: _ => false
  | .lp :: .rp :: _ => false
  | .id _ :: .lp :: _ => false
  | .id w :: ts => decide (w ∉ pyKeywords) && (nameVal tbl w).isSome && kPlain tbl ts
  | _ :: ts => kPlain tbl ts
  | [] => true

/-- Binary operations of Python on integers; `none` is an exception. -/
def KOp.app : KOp → Int → Int → Option Int
  | .or, a, b => some (a.lor b)
  | .xor, a, b => some (a.xor b)
  | .and, a, b => some (a.land b)
  | .shl, a, b => if b < 0 then none else some (a * 2 ^ b.toNat)
  | .shr, a, b => if b < 0 then none else some (a.fdiv (2 ^ b.toNat))
  | .add, a, b => some (a + b)
  | .sub, a, b => some (a - b)
  | .mul, a, b => some (a * b)
  | .mod, a, b => if b = 0 then none else some (a.fmod b)
  | .eq, a, b => some (if a = b then 1 else 0)
  | .ne, a, b => some (if a = b then 0 else 1)
  | .lt, a, b => some (if a < b then 1 else 0)
  | .gt, a, b => some (if b < a then 1 else 0)
  | .le, a, b => some (if a ≤ b then 1 else 0)
  | .ge, a, b => some (if b ≤ a then 1 else 0)

/-- The precedence of binary operators in Python, from the weakest. -/
def KOp.level : KOp → Nat
  | .eq | .ne | .lt | .gt | .le | .ge => 0
  | .or => 1
  | .xor => 2
  | .and => 3
  | .shl | .shr => 4
  | .add | .sub => 5
  | .mul | .mod => 6

/-- A comparison. -/
def KTok.isCmp : KTok → Bool
  | .op o => o.level == 0
  | _ => false

/-- No chain of comparisons; for every open parenthesis (the last first), whether a comparison was seen. -/
def noChain : List Bool → List KTok → Bool
  | _, [] => true
  | st, .lp :: ts => noChain (false :: st) ts
  | st, .rp :: ts => noChain st.tail ts
  | b :: st, .op o :: ts => if o.level = 0 then !b && noChain (true :: st) ts else noChain (b :: st) ts
  | st, _ :: ts => noChain st ts

/-- A token that is not the name of something else than an integer. -/
def KTok.isInt (tbl : Dict Str DefVal) : KTok → Bool
  | .id w => ((nameVal tbl w).bind _root_.id).isSome
  | _ => true

/-- Comparisons are modelled when there are no chains of them and all names are integers (`None` can be
compared too). -/
def kCmp (tbl : Dict Str DefVal) (ts : List KTok) : Bool :=
  !ts.any KTok.isCmp || (ts.all (KTok.isInt tbl) && noChain [false] ts)

/-- What to read next: a sequence of operands of the given level, the rest of it after a value, an operand
with signs, or an operand. -/
inductive KGoal where
  | lvl (k : Nat)
  | loop (k : Nat) (a : Int)
  | un
  | prim

/-- Read an expression and give its value and the remaining tokens; `none` is an exception (or missing
fuel: `kEval` provides enough). -/
def kRun (look : Str → Option Int) : Nat → KGoal → List KTok → Option (Int × List KTok)
  | 0, _, _ => none
  | n + 1, .lvl k, ts =>
    if k < 7 then (kRun look n (.lvl (k + 1)) ts).bind fun p => kRun look n (.loop k p.1) p.2
    else kRun look n .un ts
  | n + 1, .loop k a, ts =>
    match ts with
    | .op o :: us =>
      if o.level = k then
        (kRun look n (.lvl (k + 1)) us).bind fun p =>
          (o.app a p.1).bind fun v => kRun look n (.loop k v) p.2
      else some (a, ts)
    | _ => some (a, ts)
  | n + 1, .un, ts =>
    match ts with
    | .op .sub :: us => (kRun look n .un us).map fun p => (-p.1, p.2)
    | .op .add :: us => kRun look n .un us
    | .tilde :: us => (kRun look n .un us).map fun p => (-p.1 - 1, p.2)
    | _ => kRun look n .prim ts
  | n + 1, .prim, ts =>
    match ts with
    | .num k :: us => some (k, us)
    | .id w :: us => (look w).map fun v => (v, us)
    | .lp :: us => (kRun look n (.lvl 0) us).bind fun p =>
      match p.2 with
      | .rp :: vs => some (p.1, vs)
      | _ => none
    | _ => none

/-- The value of a complete expression; `none` is an exception. -/
def kEval (look : Str → Option Int) (ts : List KTok) : Option Int :=
  match kRun look (10 * ts.length + 10) (.lvl 0) ts with
  | some (v, []) => some v
  | _ => none

/-- Spaces and tabs. -/
def isKBlank (c : Char) : Bool := c = ' ' || c = '\t'

/-- A text without the spaces and tabs around it. -/
def kTrim (s : Str) : Str := ((s.dropWhile isKBlank).reverse.dropWhile isKBlank).reverse

/-- A string literal of Python in one piece, without backslashes and control characters. -/
def pyStrLit : Str → Option Str
  | q :: s =>
    if (q = '"' || q = '\'') && (s.dropWhile (· ≠ q) = [q]) && (s.takeWhile (· ≠ q)).all (fun c => ' ' ≤ c && c ≠ '\\') then
      some (s.takeWhile (· ≠ q))
    else none
  | [] => none

/-- The exponent of a float: `e`, a sign, digits. -/
def expoVal : Str → Option Int
  | e :: s =>
    if e = 'e' || e = 'E' then
      let g : Bool × Str := match s with
        | '+' :: s => (false, s)
        | '-' :: s => (true, s)
        | s => (false, s)
      if g.2 ≠ [] ∧ g.2.all Char.isDigit then some (if g.1 then -(kDigits 10 g.2 : Int) else kDigits 10 g.2) else none
    else none
  | [] => none

/-- `m * 10 ** e`. -/
def decimal (m : Nat) (e : Int) : Rat := (m : Rat) * (10 : Rat) ^ e

/-- A decimal fraction of Python: digits, a point or an exponent or both. -/
def fltLit (s : Str) : Option Rat :=
  let a := s.takeWhile Char.isDigit
  match s.dropWhile Char.isDigit with
  | '.' :: r =>
    let b := r.takeWhile Char.isDigit
    if a ++ b = [] then none
    else match r.dropWhile Char.isDigit with
      | [] => some (decimal (kDigits 10 (a ++ b)) (-(b.length : Int)))
      | r => (expoVal r).map fun e => decimal (kDigits 10 (a ++ b)) (e - b.length)
  | r => if a = [] then none else (expoVal r).map fun e => decimal (kDigits 10 a) e

/-- The value of a literal that is not an integer, within parentheses and (for numbers) signs.  Every round
drops a character. -/
def pyLit : Nat → Str → Option PVal
  | 0, _ => none
  | n + 1, s =>
    match kTrim s with
    | '(' :: r => if r.getLast? = some ')' then pyLit n r.dropLast else none
    | '-' :: r => match pyLit n r with
      | some (.flt q) => some (.flt (-q))
      | _ => none
    | '+' :: r => match pyLit n r with
      | some (.flt q) => some (.flt q)
      | _ => none
    | r => match pyStrLit r with
      | some t => some (.str t)
      | none => (fltLit r).map .flt

/-- The value of a complete integer expression that is read as the given goal and stays within the modelled
part of Python. -/
def kPart (tbl : Dict Str DefVal) (g : KGoal) (s : Str) : Option Int :=
  match kTok (s.length + 1) s with
  | none => none
  | some ts =>
    if kPlain tbl ts && kCmp tbl ts then
      match kRun (fun w => (nameVal tbl w).bind id) (10 * ts.length + 10) g ts with
      | some (v, []) => some v
      | _ => none
    else none

/-- The quotient of two integer expressions, perhaps in parentheses: a float, or `None` for
`ZeroDivisionError`.  Dividends above `2 ^ 200` (floats end at `2 ^ 1024`) are left to the interpreter.  Every round drops a
character. -/
def pyQuot (tbl : Dict Str DefVal) : Nat → Str → Option PVal
  | 0, _ => none
  | n + 1, s =>
    let r := s.reverse.takeWhile (· ≠ '/')
    match s.reverse.dropWhile (· ≠ '/') with
    | [] => none
    | _ :: l =>
      match kPart tbl (.lvl 6) l.reverse, kPart tbl .un r.reverse with
      | some a, some b => if b = 0 then some .none else if a.natAbs < 2 ^ 200 then some (.flt ((a : Rat) / (b : Rat))) else none
      | _, _ =>
        match kTrim s with
        | '(' :: r => if r.getLast? = some ')' then pyQuot tbl n r.dropLast else none
        | _ => none

/-- `eval(expr, None, defs["values"])` (c_parser.py:1665) of a text that is not integer arithmetic. -/
def pyEvalF (py : Dict Str DefVal → Str → PVal) (tbl : Dict Str DefVal) (s : Str) : PVal :=
  match pyLit (s.length + 1) s with
  | some v => v
  | none => (pyQuot tbl (s.length + 1) s).getD (py tbl s)

/-- `eval(expr, None, defs["values"])` (c_parser.py:1665) inside the handler of `eval_expr` (1654-1656);
`py` is the Python interpreter. -/
def pyEvalK (py : Dict Str DefVal → Str → PVal) (tbl : Dict Str DefVal) (s : Str) : PVal :=
  match kTok (s.length + 1) s with
  | none => pyEvalF py tbl s
  | some ts =>
    if kPlain tbl ts && kCmp tbl ts then
      match kEval (fun w => (nameVal tbl w).bind id) ts with
      | some v => .int v
      | none => .none
    else py tbl s

/-- `eval_expr` (c_parser.py:1633-1656) of a text. -/
def evalExpr (g : Gram) (py : Dict Str DefVal → Str → PVal) : EvalExpr := fun tbl s =>
  if evalText g s = [] then .none else pyEvalK py tbl (evalText g s)

end Pyclib
