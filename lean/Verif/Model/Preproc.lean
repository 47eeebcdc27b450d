import Verif.Text
/-
Model of `CParser.preprocess` (/repo/pyclibrary/c_parser.py:818-1024): line joining, directive
recognition, the conditional machine, `#pragma pack`, and `packing_at` (1529-1537).
Macro semantics (expansion, `#if` evaluation, `#define`, `#undef`) is a parameter here; the concrete
one is in `Model.Macro`.
-/
namespace Pyclib

/-- `Literal("\\\n").suppress().transformString(text)` (c_parser.py:843). -/
def joinLines : Str → Str
  | '\\' :: '\n' :: s => joinLines s
  | c :: s => c :: joinLines s
  | [] => []

/-- `[a-zA-Z]`. -/
def isAlphaC (c : Char) : Bool := c.isAlpha

/-- `re.compile(r"\s*#\s*([a-zA-Z]+)(.*)$").match(line)` (c_parser.py:861, 866), giving both groups.
The line contains no newline. -/
def directiveMatch (line : Str) : Option (Str × Str) :=
  match lstrip line with
  | '#' :: s =>
    let s := lstrip s
    match s.takeWhile isAlphaC with
    | [] => none
    | d => some (d, s.dropWhile isAlphaC)
  | _ => none

/-- `[a-zA-Z_]`. -/
def isIdentStart (c : Char) : Bool := c.isAlpha || c = '_'

/-- `re.match(r"\s*([a-zA-Z_][a-zA-Z0-9_]*)(.*)$", rest)` (c_parser.py:901), giving both groups. -/
def nameMatch (rest : Str) : Option (Str × Str) :=
  match lstrip rest with
  | c :: s =>
    if isIdentStart c then some (c :: s.takeWhile isWordC, s.dropWhile isWordC) else none
  | [] => none

/-- A line after directive recognition and the rewriting of `ifdef`/`ifndef` (c_parser.py:866-886) and,
for `define`/`undef`, after splitting off the macro name (900-902). -/
inductive Line where
  | code (s : Str)
  | dif (rest : Str)
  | delif (rest : Str)
  | delse
  | dendif
  | define (name rest : Str)
  | undef (name : Str)
  | pragma (rest : Str)
  /-- a `define`/`undef` without a valid name: `match` is `None`, `AttributeError` is raised -/
  | badName
  /-- any other directive -/
  | other
  deriving DecidableEq, Repr

/-- Classification of a line (c_parser.py:864-902).  For `ifdef`/`ifndef` the text tested is
`"defined " + rest` / `"!defined " + rest`. -/
def classify (line : Str) : Line :=
  match directiveMatch line with
  | none => .code line
  | some (d, rest) =>
    if d = c%"ifdef" then .dif (c%"defined " ++ rest)
    else if d = c%"ifndef" then .dif (c%"!defined " ++ rest)
    else if d = c%"if" then .dif rest
    else if d = c%"elif" then .delif rest
    else if d = c%"else" then .delse
    else if d = c%"endif" then .dendif
    else if d = c%"define" then
      match nameMatch rest with
      | none => .badName
      | some (n, r) => .define n r
    else if d = c%"undef" then
      match nameMatch rest with
      | none => .badName
      | some (n, _) => .undef n
    else if d = c%"pragma" then .pragma rest
    else .other

/-- Macro semantics used by the line machine.
`expand` = `expand_macros`; `cond env rest` = substitution of `defined`, then `expand_macros`, then
`eval_preprocessor_expr` (c_parser.py:888-899, 905-906, 909-941); `define env name rest` = parsing of
`name + " " + rest` by `pp_define` with `rest` already expanded (948-961), exceptions logged and
ignored; `undef` = `rem_def("macros", name)` with exceptions ignored (964-970). -/
structure PPSem (E : Type) where
  expand : E → Str → Str
  cond : E → Str → Bool
  define : E → Str → Str → E
  undef : E → Str → E

/-- One element of the `result` list: the expansion of a kept code line, or the empty line that stands
for a directive or a skipped code line. -/
inductive Out where
  | code (s : Str)
  | blank
  deriving DecidableEq, Repr

/-- The variables of `preprocess` that survive from one line to the next.  `ifTrue` and `ifHit` have
their top first; `packStack` and `packList` are in Python order. -/
structure PPState (E : Type) where
  env : E
  ifTrue : List Bool
  ifHit : List Bool
  packStack : List (Option Nat × Option Str)
  packing : Option Nat
  packList : List (Nat × Option Nat)

variable {E : Type}

/-- State before the first line (c_parser.py:833-838, 862-863). -/
def PPState.init (env : E) : PPState E := ⟨env, [true], [], [(none, none)], none, [(0, none)]⟩

/-- Digits of a natural number, most significant first. -/
def digitsVal (s : Str) : Nat := s.foldl (fun n c => 10 * n + (c.toNat - '0'.toNat)) 0

/-- `str.isdigit()` (ASCII). -/
def isDigits (s : Str) : Bool := !s.isEmpty && s.all Char.isDigit

/-- `re.match(r"\s+pack\s*\(([^\)]*)\)", rest)` (c_parser.py:982), giving the group. -/
def packMatch (rest : Str) : Option Str :=
  match rest with
  | [] => none
  | c :: _ =>
    if isSpaceC c then
      match lstrip rest with
      | 'p' :: 'a' :: 'c' :: 'k' :: s =>
        match lstrip s with
        | '(' :: s => (split1 ')' s).map (·.1)
        | _ => none
      | _ => none
    else none

/-- The loop over the pack options (c_parser.py:988-995): `pushpop`, `val`, `id`. -/
def packOpts : List Str → Option Str × Option Nat × Option Str → Option Str × Option Nat × Option Str
  | [], acc => acc
  | o :: os, (pp, val, id) =>
    if o = c%"push" || o = c%"pop" then packOpts os (some o, val, id)
    else if isDigits o then packOpts os (pp, some (digitsVal o), id)
    else packOpts os (pp, val, some o)

/-- The prefix of the pack stack before the first entry with the given id (c_parser.py:1005-1011);
the whole stack if there is none. -/
def packTruncate (id : Str) (st : List (Option Nat × Option Str)) : List (Option Nat × Option Str) :=
  if st.any (fun e => e.2 = some id) then st.takeWhile (fun e => e.2 ≠ some id) else st

/-- Effect of a decoded `#pragma pack` on line `i` (c_parser.py:997-1018); `popFirst` is
`opts[0] == "pop"`. -/
def packEffect (i : Nat) (s : PPState E) (popFirst : Bool) (pp : Option Str) (val : Option Nat)
    (id : Option Str) : Except PyErr (PPState E) :=
  if pp = some c%"push" then
    .ok { s with
      packStack := s.packStack ++ [(val, id)], packing := val, packList := s.packList ++ [(i, val)] }
  else if popFirst then
    let popped : Except PyErr (List (Option Nat × Option Str)) :=
      match id with
      | none => if s.packStack = [] then .error .indexError else .ok s.packStack.dropLast
      | some x => .ok (packTruncate x s.packStack)
    match popped with
    | .error e => .error e
    | .ok st =>
      match val with
      | some v => .ok { s with packStack := st, packing := some v, packList := s.packList ++ [(i, some v)] }
      | none =>
        match st.getLast? with
        | none => .error .indexError
        | some (p, _) => .ok { s with packStack := st, packing := p, packList := s.packList ++ [(i, p)] }
  else .ok { s with packing := val, packList := s.packList ++ [(i, val)] }

/-- Handling of a `#pragma pack(...)` whose parenthesised text is `txt`, on line `i`
(c_parser.py:985-1018). -/
def doPack (i : Nat) (s : PPState E) (txt : Str) : Except PyErr (PPState E) :=
  let opts := (splitOnC ',' txt).map strip
  let r := packOpts opts (none, none, none)
  packEffect i s (decide (opts.head? = some c%"pop")) r.1 r.2.1 r.2.2

/-- One iteration of the line loop (c_parser.py:864-1022): the new state and the element appended to
`result` (`none` when `continue` skips the append). -/
def ppStep (sem : PPSem E) (i : Nat) (s : PPState E) : Line → Except PyErr (PPState E × Option Out)
  | .code l =>
    match s.ifTrue with
    | [] => .error .indexError
    | true :: _ => .ok (s, some (.code (sem.expand s.env l)))
    | false :: _ => .ok (s, some .blank)
  | .dif r =>
    let ev := if s.ifTrue.all id then sem.cond s.env r else false
    .ok ({ s with ifTrue := ev :: s.ifTrue, ifHit := ev :: s.ifHit }, some .blank)
  | .delif r =>
    match s.ifHit, s.ifTrue with
    | h :: hs, _ :: ts =>
      let ev := if h || !ts.all id then false else sem.cond s.env r
      .ok ({ s with ifTrue := ev :: ts, ifHit := (h || ev) :: hs }, some .blank)
    | _, _ => .error .indexError
  | .delse =>
    match s.ifHit, s.ifTrue with
    | h :: hs, _ :: ts =>
      .ok ({ s with ifTrue := (!h && ts.all id) :: ts, ifHit := true :: hs }, some .blank)
    | _, _ => .error .indexError
  | .dendif =>
    match s.ifHit, s.ifTrue with
    | _ :: hs, _ :: ts => .ok ({ s with ifTrue := ts, ifHit := hs }, some .blank)
    | _, _ => .error .indexError
  | .define n r =>
    match s.ifTrue with
    | [] => .error .indexError
    | false :: _ => .ok (s, none)
    | true :: ts =>
      let r' := if ts.all id then sem.expand s.env r else r
      .ok ({ s with env := sem.define s.env n r' }, some .blank)
  | .undef n =>
    match s.ifTrue with
    | [] => .error .indexError
    | false :: _ => .ok (s, none)
    | true :: _ => .ok ({ s with env := sem.undef s.env n }, some .blank)
  | .pragma r =>
    match s.ifTrue with
    | [] => .error .indexError
    | false :: _ => .ok (s, none)
    | true :: ts =>
      let r' := if ts.all id then sem.expand s.env r else r
      match packMatch r' with
      | none => .ok (s, none)
      | some txt =>
        match doPack i s txt with
        | .error e => .error e
        | .ok s' => .ok (s', some .blank)
  | .badName => .error .attributeError
  | .other => .ok (s, some .blank)

/-- The line loop from line number `i` on (c_parser.py:864-1022). -/
def ppRun (sem : PPSem E) (i : Nat) (s : PPState E) : List Line → Except PyErr (PPState E × List Out)
  | [] => .ok (s, [])
  | l :: ls =>
    match ppStep sem i s l with
    | .error e => .error e
    | .ok (s', o) =>
      match ppRun sem (i + 1) s' ls with
      | .error e => .error e
      | .ok (s'', os) => .ok (s'', o.toList ++ os)

/-- Text of one element of `result`. -/
def Out.text : Out → Str
  | .code s => s
  | .blank => []

/-- `CParser.preprocess` (c_parser.py:818-1024) on a text: final state and the new text. -/
def preprocess (sem : PPSem E) (env : E) (text : Str) : Except PyErr (PPState E × Str) :=
  match ppRun sem 0 (PPState.init env) ((splitOnC '\n' (joinLines text)).map classify) with
  | .error e => .error e
  | .ok (s, os) => .ok (s, joinC '\n' (os.map Out.text))

/-- `CParser.packing_at` (c_parser.py:1529-1537), continuing with the value `acc` found so far. -/
def packingAtFrom (acc : Option Nat) (line : Nat) : List (Nat × Option Nat) → Option Nat
  | [] => acc
  | (i, p) :: r => if i ≤ line then packingAtFrom p line r else acc

/-- `CParser.packing_at` (c_parser.py:1529-1537). -/
def packingAt (line : Nat) (l : List (Nat × Option Nat)) : Option Nat := packingAtFrom none line l

/-- Model of `pyparsing.lineno(loc, s)`: 1 + number of newlines before `loc`; used by `process_struct`
(c_parser.py:1545). -/
def linenoAt (s : Str) (loc : Nat) : Nat := 1 + ((s.take loc).filter (· = '\n')).length

/-- Packing that `process_struct` records for a struct whose text starts at offset `loc`
(c_parser.py:1545). -/
def structPacking (l : List (Nat × Option Nat)) (text : Str) (loc : Nat) : Option Nat :=
  packingAt (linenoAt text loc) l

end Pyclib
