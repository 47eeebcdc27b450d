import Verif.Model.Macro
/-
Model of `CParser.eval_preprocessor_expr` (/repo/pyclibrary/c_parser.py:1026-1042) and of its use for
`#if`/`#elif` (c_parser.py:886-903, 911-938).

Python's `eval` is modelled for texts made of decimal integers, `not`/`and`/`or`, comparisons, `+`, `-`,
`*` and parentheses (tokenizer and recursive descent following Python's grammar, values are integers,
`False`/`True` being 0/1).  For any other text (floats, strings, brackets, calls `0(..)`, empty
parentheses, other operators) the result is given by an arbitrary function `pyo`, `none` meaning an
exception.  CPython's limits on nesting (200 parentheses) and on the number of digits of a literal are not modelled.
-/
namespace Pyclib

/-- `macro_diffs.transformString(expr)` (c_parser.py:1028-1034): `!`, `&&`, `||` become ` not `, ` and `,
` or `, and every identifier (even one right after a digit) becomes `0`. -/
def transformLoop : Nat → Str → Str
  | 0, s => s
  | _ + 1, [] => []
  | n + 1, c :: s =>
    if c = '!' then c%" not " ++ transformLoop n s
    else if startsWith (c :: s) c%"&&" then c%" and " ++ transformLoop n (s.drop 1)
    else if startsWith (c :: s) c%"||" then c%" or " ++ transformLoop n (s.drop 1)
    else if isIdentStart c then '0' :: transformLoop n (s.dropWhile isWordC)
    else c :: transformLoop n s

/-- `macro_diffs.transformString(expr).strip()` (c_parser.py:1034). -/
def transformPP (s : Str) : Str := strip (transformLoop (s.length + 1) s)

/-- Comparison operators of Python that can occur (`!` never survives the transformation). -/
inductive CmpOp where
  | eq | lt | gt | le | ge
  deriving DecidableEq

/-- Binary arithmetic operators of the modelled fragment. -/
inductive AOp where
  | add | sub | mul
  deriving DecidableEq

/-- Python tokens of the modelled fragment; `bad` makes any expression a `SyntaxError`. -/
inductive PTok where
  | num (n : Nat)
  | not | and | or
  | cmp (op : CmpOp)
  | arith (op : AOp)
  | lp | rp
  | bad
  deriving DecidableEq

/-- A run of digits: leading zeros are allowed only if all digits are zero. -/
def numTok (ds : Str) : PTok :=
  if ds.head? = some '0' ∧ ¬ ds.all (· = '0') then .bad else .num (digitsVal ds)

/-- Python tokenizer on the fragment; `none`: outside the fragment. -/
def pyTok : Nat → Str → Option (List PTok)
  | 0, _ => none
  | _ + 1, [] => some []
  | n + 1, c :: s =>
    if c = ' ' ∨ c = '\t' then pyTok n s
    else if c.isDigit then
      match s.dropWhile Char.isDigit with
      | '.' :: _ => none
      | r => (pyTok n r).map (numTok (c :: s.takeWhile Char.isDigit) :: ·)
    else if c.isAlpha then
      let w := c :: s.takeWhile isWordC
      let r := s.dropWhile isWordC
      if w = c%"not" then (pyTok n r).map (.not :: ·)
      else if w = c%"and" then (pyTok n r).map (.and :: ·)
      else if w = c%"or" then (pyTok n r).map (.or :: ·)
      else none
    else if c = '(' then (pyTok n s).map (.lp :: ·)
    else if c = ')' then (pyTok n s).map (.rp :: ·)
    else if c = '+' then (pyTok n s).map (.arith .add :: ·)
    else if c = '-' then (pyTok n s).map (.arith .sub :: ·)
    else if c = '*' then if s.head? = some '*' then none else (pyTok n s).map (.arith .mul :: ·)
    else if c = '=' then
      if s.head? = some '=' then (pyTok n (s.drop 1)).map (.cmp .eq :: ·) else (pyTok n s).map (.bad :: ·)
    else if c = '<' then
      if s.head? = some '=' then (pyTok n (s.drop 1)).map (.cmp .le :: ·)
      else if s.head? = some '<' ∨ s.head? = some '>' then none
      else (pyTok n s).map (.cmp .lt :: ·)
    else if c = '>' then
      if s.head? = some '=' then (pyTok n (s.drop 1)).map (.cmp .ge :: ·)
      else if s.head? = some '>' then none
      else (pyTok n s).map (.cmp .gt :: ·)
    else none

/-- A call (`0(..)`) or empty parentheses: outside the fragment. -/
def hasCall : List PTok → Bool
  | .num _ :: .lp :: _ => true
  | .rp :: .lp :: _ => true
  | .lp :: .rp :: _ => true
  | _ :: ts => hasCall ts
  | [] => false

/-- Value of a comparison. -/
def CmpOp.holds : CmpOp → Int → Int → Bool
  | .eq, a, b => a == b
  | .lt, a, b => a < b
  | .gt, a, b => a > b
  | .le, a, b => a ≤ b
  | .ge, a, b => a ≥ b

/-- `True`/`False` as integers. -/
def b2i (b : Bool) : Int := if b then 1 else 0

/-- `a and b`. -/
def pyAnd (a b : Int) : Int := if a = 0 then a else b

/-- `a or b`. -/
def pyOr (a b : Int) : Int := if a = 0 then b else a

/-- What to read next: the non-terminals of Python's expression grammar (`or_test`, `and_test`,
`not_test`, `comparison`, `a_expr`, `m_expr`, `u_expr`, atom) and, for the iterated ones, the rest of an
iteration given the value so far. -/
inductive Goal where
  | or | orL (a : Int)
  | and | andL (a : Int)
  | not
  | cmp | cmpL (prev : Int) (acc : Bool)
  | add | addL (a : Int)
  | mul | mulL (a : Int)
  | un
  | prim

/-- Read an expression and give its value and the remaining tokens; `none` is `SyntaxError` (or missing
fuel: `evalToks` provides enough).  In the fragment evaluation never raises, so reading and evaluating
at once is the same as evaluating afterwards. -/
def run : Nat → Goal → List PTok → Option (Int × List PTok)
  | 0, _, _ => none
  | n + 1, .or, ts => (run n .and ts).bind fun p => run n (.orL p.1) p.2
  | n + 1, .orL a, ts =>
    match ts with
    | .or :: ts => (run n .and ts).bind fun p => run n (.orL (pyOr a p.1)) p.2
    | ts => some (a, ts)
  | n + 1, .and, ts => (run n .not ts).bind fun p => run n (.andL p.1) p.2
  | n + 1, .andL a, ts =>
    match ts with
    | .and :: ts => (run n .not ts).bind fun p => run n (.andL (pyAnd a p.1)) p.2
    | ts => some (a, ts)
  | n + 1, .not, ts =>
    match ts with
    | .not :: ts => (run n .not ts).map fun p => (b2i (p.1 == 0), p.2)
    | ts => run n .cmp ts
  | n + 1, .cmp, ts =>
    (run n .add ts).bind fun p =>
      match p.2 with
      | .cmp _ :: _ => run n (.cmpL p.1 true) p.2
      | _ => some p
  | n + 1, .cmpL a acc, ts =>
    match ts with
    | .cmp op :: ts => (run n .add ts).bind fun p => run n (.cmpL p.1 (acc && op.holds a p.1)) p.2
    | ts => some (b2i acc, ts)
  | n + 1, .add, ts => (run n .mul ts).bind fun p => run n (.addL p.1) p.2
  | n + 1, .addL a, ts =>
    match ts with
    | .arith .add :: ts => (run n .mul ts).bind fun p => run n (.addL (a + p.1)) p.2
    | .arith .sub :: ts => (run n .mul ts).bind fun p => run n (.addL (a - p.1)) p.2
    | ts => some (a, ts)
  | n + 1, .mul, ts => (run n .un ts).bind fun p => run n (.mulL p.1) p.2
  | n + 1, .mulL a, ts =>
    match ts with
    | .arith .mul :: ts => (run n .un ts).bind fun p => run n (.mulL (a * p.1)) p.2
    | ts => some (a, ts)
  | n + 1, .un, ts =>
    match ts with
    | .arith .sub :: ts => (run n .un ts).map fun p => (-p.1, p.2)
    | .arith .add :: ts => run n .un ts
    | ts => run n .prim ts
  | n + 1, .prim, ts =>
    match ts with
    | .num k :: ts => some (k, ts)
    | .lp :: ts => (run n .or ts).bind fun p =>
      match p.2 with
      | .rp :: ts => some (p.1, ts)
      | _ => none
    | _ => none

/-- Value of a complete expression; `none` is `SyntaxError`. -/
def evalToks (ts : List PTok) : Option Int :=
  match run (10 * ts.length + 10) .or ts with
  | some (v, []) => some v
  | _ => none

/-- `eval(expr2)` up to truth value (c_parser.py:1037). -/
def pyEval (pyo : Str → Option Bool) (s : Str) : Except PyErr Bool :=
  match pyTok (s.length + 1) s with
  | none =>
    match pyo s with
    | some b => .ok b
    | none => .error .typeError
  | some ts =>
    if hasCall ts then
      match pyo s with
      | some b => .ok b
      | none => .error .typeError
    else
      match evalToks ts with
      | some v => .ok (v != 0)
      | none => .error .valueError

/-- `eval_preprocessor_expr(expr)` (c_parser.py:1026-1042); an exception raised by `eval` is caught. -/
def evalPP (pyo : Str → Option Bool) (s : Str) : Except PyErr Bool :=
  match pyEval pyo (transformPP s) with
  | .ok b => .ok b
  | .error _ => .ok false

/-- Value of the condition of `#if`/`#elif`: `defined` first, then macro expansion, then evaluation
(c_parser.py:886-907, 915, 934). -/
def condE (orc : Str → List Str → Option Str) (pyo : Str → Option Bool) (env : MEnv) (r : Str) :
    Except PyErr Bool :=
  evalPP pyo (expandMacros orc env (substDefined env r))

/-- The macro semantics used by `preprocess`; the text of a definition is expanded by `preprocess`
before `define` sees it (c_parser.py:905-906, 948-961). -/
def macroSem (orc : Str → List Str → Option Str) (pyo : Str → Option Bool) : PPSem MEnv where
  expand := expandMacros orc
  cond env r := match condE orc pyo env r with
    | .ok b => b
    | .error _ => false
  define := defineMacro
  undef := undefMacro

end Pyclib
