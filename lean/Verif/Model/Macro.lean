import Verif.Model.Preproc
/-
Model of macro handling in `CParser` (/repo/pyclibrary/c_parser.py): `expand_macros` (1092-1134),
`expand_fn_macro` (1136-1152), `compile_fn_macro` (1073-1090), `process_macro_defn` (1044-1071), the
`pp_define` grammar (846-855) and the `defined` operator (889-899).

Simplifications:
* only the `macros` and `fnmacros` tables of `self.defs` are here (per-file tables: `Model.Store`);
* macro values are strings (a `None` given through the constructor would make `"".join` fail);
* `str.format` is modelled exactly for templates whose replacement fields are all `{}`; for any other
  field (`{0}`, `{x}`, `{:d}` ...) the result is given by an arbitrary function `orc`;
* `#define` lines contain no tab (pyparsing's `parseString` would replace it by blanks) and no
  quotation mark inside the parameter list (pyparsing would skip a quoted string before the closing
  parenthesis).
-/
namespace Pyclib

/-- `self.defs["macros"]` and `self.defs["fnmacros"]`; a function-like macro is a format template and
the parameter index of each field. -/
structure MEnv where
  macros : Dict Str Str
  fnmacros : Dict Str (Str × List Nat)

/-- After an opening `"`: regex `(\\"|[^"])*"` with backtracking; the text matched (with the closing
quote) and the rest. -/
def strLit : Str → Option (Str × Str)
  | [] => none
  | '"' :: s => some (['"'], s)
  | '\\' :: '"' :: s =>
    match strLit s with
    | some (a, r) => some ('\\' :: '"' :: a, r)
    | none => some (['\\', '"'], s)
  | c :: s => (strLit s).map (fun p => (c :: p.1, p.2))

/-- Result of `reg.search(line)` with `reg = ("(\\"|[^"])*")|(\b(\w+)\b)` (c_parser.py:1098): nothing, a
string literal, or a word with the text before and after it. -/
inductive Found where
  | none
  | str
  | word (pre w rest : Str)
  deriving DecidableEq

/-- Put a character in front of the text before the match. -/
def Found.push (c : Char) : Found → Found
  | .word pre w rest => .word (c :: pre) w rest
  | f => f

/-- `reg.search(line)` (c_parser.py:1098, 1105): the first position where a string literal or a word
starts. -/
def findTok : Str → Found
  | [] => .none
  | c :: s =>
    if c = '"' then
      if (strLit s).isSome then .str else (findTok s).push c
    else if isWordC c then .word [] (c :: s.takeWhile isWordC) (s.dropWhile isWordC)
    else (findTok s).push c

/-- Outcome of `str.format`. -/
inductive Fmt where
  | ok (s : Str)
  /-- `ValueError` or `IndexError` -/
  | fail
  /-- a replacement field other than `{}` -/
  | other

/-- Put text in front of an outcome. -/
def Fmt.prepend (a : Str) : Fmt → Fmt
  | .ok s => .ok (a ++ s)
  | f => f

/-- `template.format(*args)`. -/
def fmtLoop : Str → List Str → Fmt
  | [], _ => .ok []
  | '{' :: '{' :: s, as => (fmtLoop s as).prepend ['{']
  | '}' :: '}' :: s, as => (fmtLoop s as).prepend ['}']
  | '{' :: '}' :: s, a :: as => (fmtLoop s as).prepend a
  | '{' :: '}' :: _, [] => .fail
  | ['{'], _ => .fail
  | '{' :: _ :: _, _ => .other
  | '}' :: _, _ => .fail
  | c :: s, as => (fmtLoop s as).prepend [c]

/-- `template.format(*args)`, with `orc` for templates outside the modelled fragment; `none` is an
exception. -/
def pyFormat (orc : Str → List Str → Option Str) (t : Str) (as : List Str) : Option Str :=
  match fmtLoop t as with
  | .ok s => some s
  | .fail => none
  | .other => orc t as

/-- `[args[i] for i in defn[1]]`; `none` is `IndexError` (c_parser.py:1150). -/
def pickArgs (args : List Str) : List Nat → Option (List Str)
  | [] => some []
  | i :: is =>
    match args[i]?, pickArgs args is with
    | some a, some as => some (a :: as)
    | _, _ => none

/-- Argument analysis of a call (c_parser.py:1141-1147): the stripped arguments and the text after the
call; `none` is an exception. -/
def callArgs (text : Str) : Option (List Str × Str) :=
  match split1 ')' text with
  | none => none
  | some (a, rest) =>
    match split1 '(' a with
    | none => none
    | some (_, a) => some ((splitOnC ',' a).map strip, rest)

/-- Apply a fallible function to every element. -/
def mapOpt {α β : Type} (f : α → Option β) : List α → Option (List β)
  | [] => some []
  | a :: as =>
    match f a, mapOpt f as with
    | some b, some bs => some (b :: bs)
    | _, _ => none

/-- `expand_macros` (c_parser.py:1092-1134) with `expand_fn_macro` (1136-1152) inlined; `none` only when
the fuel runs out.  A string literal gives `m.end(3) = -1`, so everything but the last character is
copied and the loop goes on with the last character. -/
def expandF (orc : Str → List Str → Option Str) (env : MEnv) : Nat → Str → Option Str
  | 0, _ => none
  | n + 1, line =>
    match findTok line with
    | .none => some line
    | .str => (expandF orc env n (line.drop (line.length - 1))).map (line.dropLast ++ ·)
    | .word pre w rest =>
      match dget env.macros w with
      | some v => (expandF orc env n rest).map (fun r => pre ++ v ++ r)
      | none =>
        match dget env.fnmacros w with
        | none => (expandF orc env n rest).map (fun r => pre ++ w ++ r)
        | some defn =>
          match callArgs rest with
          | none => (expandF orc env n rest).map (fun r => pre ++ w ++ r)
          | some (args, stop) =>
            match mapOpt (expandF orc env n) args with
            | none => none
            | some args' =>
              match (pickArgs args' defn.2).bind (pyFormat orc defn.1) with
              | none => (expandF orc env n rest).map (fun r => pre ++ w ++ r)
              | some t => (expandF orc env n stop).map (fun r => pre ++ t ++ r)

/-- `expand_macros(line)` (c_parser.py:1092-1134). -/
def expandMacros (orc : Str → List Str → Option Str) (env : MEnv) (line : Str) : Str :=
  (expandF orc env (line.length + 1) line).getD []

/-- Index of the first occurrence (`list.index`). -/
def indexOf (x : Str) : List Str → Option Nat
  | [] => none
  | y :: ys => if y = x then some 0 else (indexOf x ys).map (· + 1)

/-- `compile_fn_macro(text, args)` (c_parser.py:1073-1090): template and parameter indices.  The
alternation of parameter names between word boundaries matches exactly the maximal words that are
parameter names.  Every step consumes a character, so `text.length + 1` steps are enough. -/
def compileLoop (params : List Str) : Nat → Str → Str × List Nat
  | 0, s => (s, [])
  | _ + 1, [] => ([], [])
  | n + 1, c :: s =>
    if c = '"' then
      match strLit s with
      | some (a, r) => let q := compileLoop params n r; (c :: a ++ q.1, q.2)
      | none => let q := compileLoop params n s; (c :: q.1, q.2)
    else if isWordC c then
      let w := c :: s.takeWhile isWordC
      let q := compileLoop params n (s.dropWhile isWordC)
      match indexOf w params with
      | some i => ('{' :: '}' :: q.1, i :: q.2)
      | none => (w ++ q.1, q.2)
    else let q := compileLoop params n s; (c :: q.1, q.2)

/-- `compile_fn_macro(text, args)` (c_parser.py:1073-1090). -/
def compileFn (text : Str) (params : List Str) : Str × List Nat :=
  compileLoop params (text.length + 1) text

/-- White space skipped by the `pp_define` grammar. -/
def skipBlank (s : Str) : Str := s.dropWhile (fun c => c = ' ' || c = '\t')

/-- An identifier after optional blanks: `Word(alphas + "_", alphanums + "_")`. -/
def identTok (s : Str) : Option (Str × Str) :=
  match skipBlank s with
  | c :: r => if isIdentStart c then some (c :: r.takeWhile isWordC, r.dropWhile isWordC) else none
  | [] => none

/-- `ZeroOrMore("," + name)` followed by `)`. -/
def moreParams : Nat → Str → Option (List Str × Str)
  | 0, _ => none
  | n + 1, s =>
    match skipBlank s with
    | ')' :: r => some ([], r)
    | ',' :: r =>
      match identTok r with
      | none => none
      | some (x, r) => (moreParams n r).map (fun p => (x :: p.1, p.2))
    | _ => none

/-- `Optional(lparen + delimitedList(name) + rparen)` (c_parser.py:847): parameters and rest. -/
def paramList (s : Str) : Option (List Str × Str) :=
  match skipBlank s with
  | '(' :: r =>
    match identTok r with
    | none => none
    | some (x, r) => (moreParams (r.length + 1) r).map (fun p => (x :: p.1, p.2))
  | _ => none

/-- Parsing of `name + " " + rest` by `pp_define` (c_parser.py:846-855, 956): parameters, if any, and the
stripped value (1047). -/
def parseDefine (rest : Str) : Option (List Str) × Str :=
  match paramList rest with
  | some (ps, r) => (some ps, strip r)
  | none => (none, strip rest)

/-- `process_macro_defn` (c_parser.py:1044-1071) on the tables `macros` and `fnmacros`. -/
def defineMacro (env : MEnv) (name rest : Str) : MEnv :=
  let d := parseDefine rest
  match dget env.fnmacros d.2 with
  | some f => { env with fnmacros := dset env.fnmacros name f }
  | none =>
    match d.1 with
    | none => { env with macros := dset env.macros name d.2 }
    | some ps => { env with fnmacros := dset env.fnmacros name (compileFn d.2 ps) }

/-- `#undef`: `rem_def("macros", name)`, a missing name is ignored (c_parser.py:964-970). -/
def undefMacro (env : MEnv) (name : Str) : MEnv :=
  { env with macros := ddel env.macros name }

/-- `t["name"] in macros or in fnmacros` (c_parser.py:891-893). -/
def isDefined (env : MEnv) (name : Str) : Bool := dhas env.macros name || dhas env.fnmacros name

/-- Characters that may not touch a pyparsing `Keyword`. -/
def isKwChar (c : Char) : Bool := isWordC c || c = '$'

/-- After the keyword `defined`: `name | "(" name ")"` (c_parser.py:895-896). -/
def definedArg (s : Str) : Option (Str × Str) :=
  match identTok s with
  | some p => some p
  | none =>
    match skipBlank s with
    | '(' :: r =>
      match identTok r with
      | none => none
      | some (x, r) =>
        match skipBlank r with
        | ')' :: r => some (x, r)
        | _ => none
    | _ => none

/-- Replacement of `defined X` / `defined(X)` by `1` or `0` (c_parser.py:889-899); `prev` tells whether
the previous character is a keyword character (after a replacement this does not matter: the rest then
starts with no word character or follows a parenthesis). -/
def definedLoop (isDef : Str → Bool) : Nat → Bool → Str → Str
  | 0, _, s => s
  | _ + 1, _, [] => []
  | n + 1, prev, c :: s =>
    let copy := c :: definedLoop isDef n (isKwChar c) s
    if !prev && startsWith (c :: s) c%"defined" then
      let r := (c :: s).drop 7
      match r with
      | d :: _ =>
        if isKwChar d then copy
        else
          match definedArg r with
          | some (x, r') => (if isDef x then '1' else '0') :: definedLoop isDef n false r'
          | none => copy
      | [] => copy
    else copy

/-- Replacement of the `defined` operator in a condition (c_parser.py:889-899). -/
def substDefined (env : MEnv) (s : Str) : Str := definedLoop (isDefined env) (s.length + 1) false s

end Pyclib
