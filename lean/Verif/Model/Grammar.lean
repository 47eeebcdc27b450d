import Verif.Model.Decl
import Verif.Model.Comments
/-
Model of the grammar of `CParser` (/repo/pyclibrary/c_parser.py:1184-1382 and 1776-1946) and of
`parse_defs` (1156-1182), at the level of characters.

pyparsing is recursive descent with ordered choice: `And` is sequence, `|` takes the first alternative
that matches, `Optional`, `ZeroOrMore` and `OneOrMore` are greedy, and white space is skipped in front of
every terminal.  Parse actions with side effects (`process_struct`, `process_enum`) run as soon as their
element has matched, also when an enclosing element fails later; therefore every parser that contains a
type specifier carries the definition tables.

Simplifications:
* the packrat cache is not modelled (results of a type specifier may be remembered instead of computed
  again; this matters only for anonymous struct, union or enum bodies that are parsed twice);
* tabs are not expanded (they count as white space);
* a type whose `process_struct` or `process_enum` failed gets the name given by an arbitrary function
  `junk` of the remaining text (pyparsing joins the raw tokens);
* what stands in parentheses after a `__name` qualifier is recorded as the text `(...)`;
* extra types and modifiers are words.
-/
namespace Pyclib

/-- A position in the text: the character before it (a blank at the start) and the text after it. -/
structure Pos where
  prev : Char
  rest : Str

/-- `alphanums + "_$"`: characters of identifiers. -/
def isIdC (c : Char) : Bool := isWordC c || c = '$'

/-- White space skipped by pyparsing. -/
def isWhite (c : Char) : Bool := c = ' ' || c = '\n' || c = '\t' || c = '\r'

/-- White space is skipped. -/
def skipWs : Char → Str → Pos
  | p, [] => ⟨p, []⟩
  | p, c :: s => if isWhite c then skipWs c s else ⟨p, c :: s⟩

/-- The position after white space. -/
def Pos.skip (x : Pos) : Pos := skipWs x.prev x.rest

/-- The position after the text `w` has been read in front of `s`. -/
def posAfter (w s : Str) : Pos := ⟨w.getLastD ' ', s⟩

/-- A one-character `Literal`. -/
def lit (c : Char) (x : Pos) : Option Pos :=
  match x.skip.rest with
  | [] => none
  | d :: s => if d = c then some ⟨c, s⟩ else none

/-- `quotedString`: the text of the literal. -/
def quotedTok (x : Pos) : Option (Str × Pos) :=
  match x.skip.rest with
  | [] => none
  | q :: s =>
    if q = '"' || q = '\'' then (matchQuoted q s).map (fun p => (q :: p.1, ⟨q, p.2⟩)) else none

/-- `ignore(quotedString)`: string literals are skipped; every one has at least two characters. -/
def skipQuoted : Nat → Pos → Pos
  | 0, x => x
  | n + 1, x =>
    match quotedTok x with
    | some (_, y) => skipQuoted n y
    | none => x

/-- A delimiter that is not the first element of a sequence (c_parser.py:1781-1789): string literals in
front of it are skipped.  For the first element pyparsing does not do this. -/
def delim (c : Char) (x : Pos) : Option Pos := lit c (skipQuoted x.rest.length x)

/-- `kwl(words)` (c_parser.py:1746-1748): regex `\b(w1|w2|...)\b`. -/
def kwl (ws : List Str) (x : Pos) : Option (Str × Pos) :=
  let y := x.skip
  let w := y.rest.takeWhile isWordC
  if isWordC y.prev then none
  else if w ∈ ws then some (w, posAfter w (y.rest.dropWhile isWordC))
  else none

/-- `Keyword(k)`. -/
def keyword (k : Str) (x : Pos) : Option Pos :=
  let y := x.skip
  if isIdC y.prev then none
  else if y.rest.takeWhile isIdC = k then some (posAfter k (y.rest.dropWhile isIdC))
  else none

/-- `qualifiers` (c_parser.py:1858). -/
def qualWords : List Str := [c%"const", c%"volatile", c%"restrict", c%"near", c%"far"]

/-- `storage_classes` (c_parser.py:1857). -/
def storageWords : List Str := [c%"inline", c%"static", c%"extern"]

/-- `base_types` (c_parser.py:1856). -/
def baseTypes (cfg : Cfg) : List Str := nonnumTypes ++ numTypes cfg ++ cfg.extraTypes

/-- The words of `fund_type` (c_parser.py:1906-1908). -/
def fundWords (cfg : Cfg) : List Str := signModifiers ++ sizeModifiers ++ baseTypes cfg

/-- `keywords` (c_parser.py:1860-1870). -/
def keywords (cfg : Cfg) : List Str :=
  [c%"struct", c%"enum", c%"union", c%"__stdcall", c%"__cdecl"] ++ qualWords ++ baseTypes cfg ++
    sizeModifiers ++ signModifiers

/-- `ident` (c_parser.py:1874-1879): a word that is not a keyword. -/
def identP (cfg : Cfg) (x : Pos) : Option (Str × Pos) :=
  let y := x.skip
  if isIdC y.prev then none
  else if y.rest.takeWhile isWordC ∈ keywords cfg then none
  else if y.rest.head?.any isIdentStart then
    some (y.rest.takeWhile isIdC, posAfter (y.rest.takeWhile isIdC) (y.rest.dropWhile isIdC))
  else none

/-- `underscore_2_ident` (c_parser.py:1884-1890): two underscores and a word, possibly after white space,
that starts with a letter or digit.  The token is `__`. -/
def underIdent (cfg : Cfg) (x : Pos) : Option Pos :=
  let y := x.skip
  if isIdC y.prev then none
  else if y.rest.takeWhile isWordC ∈ keywords cfg then none
  else if startsWith y.rest c%"__" then
    let z := Pos.skip ⟨'_', y.rest.drop 2⟩
    if z.rest.head?.any Char.isAlphanum then
      some (posAfter (z.rest.takeWhile isIdC) (z.rest.dropWhile isIdC))
    else none
  else none

/-- The inside of `nestedExpr(o, c)` at depth `d`, up to the matching closing character; string literals
are skipped.  Every step reads a character, so the length of the text is a sufficient bound. -/
def nestLoop (o c : Char) : Nat → Nat → Str → Option Str
  | 0, _, _ => none
  | _, _, [] => none
  | n + 1, d, a :: s =>
    match (if a = '"' || a = '\'' then matchQuoted a s else none) with
    | some p => nestLoop o c n d p.2
    | none =>
      if a = o then nestLoop o c n (d + 1) s
      else if a = c then (match d with | 0 => some s | d + 1 => nestLoop o c n d s)
      else nestLoop o c n d s

/-- `nestedExpr(o, c)`. -/
def nestedP (o c : Char) (x : Pos) : Option Pos :=
  match lit o x with
  | none => none
  | some y => (nestLoop o c y.rest.length 0 y.rest).map (fun r => ⟨c, r⟩)

/-- `type_qualifier` (c_parser.py:1891-1893): `ZeroOrMore`, every round reads a character. -/
def qualLoop (cfg : Cfg) : Nat → Pos → List Str × Pos
  | 0, x => ([], x)
  | n + 1, x =>
    match underIdent cfg x with
    | some y =>
      match nestedP '(' ')' y with
      | some z => let r := qualLoop cfg n z; (c%"__" :: c%"(...)" :: r.1, r.2)
      | none => let r := qualLoop cfg n y; (c%"__" :: r.1, r.2)
    | none =>
      match kwl qualWords x with
      | some (w, y) => let r := qualLoop cfg n y; (w :: r.1, r.2)
      | none => ([], x)

/-- `type_qualifier` (c_parser.py:1891-1893). -/
def qualP (cfg : Cfg) (x : Pos) : List Str × Pos := qualLoop cfg x.rest.length x

/-! ### Numbers and expressions -/

/-- `[+-]?\s*`: the text read and the rest. -/
def signTok (s : Str) : Str × Str :=
  match s with
  | '+' :: s => ('+' :: s.takeWhile isSpaceC, s.dropWhile isSpaceC)
  | '-' :: s => ('-' :: s.takeWhile isSpaceC, s.dropWhile isSpaceC)
  | s => (s.takeWhile isSpaceC, s.dropWhile isSpaceC)

/-- `[UL]*`. -/
def isUL (c : Char) : Bool := c = 'U' || c = 'L'

/-- `hexint` (c_parser.py:1793): the number without suffix, the suffix, and the rest. -/
def hexTok (s : Str) : Option (Str × Str × Str) :=
  match signTok s with
  | (g, '0' :: x :: h :: r) =>
    if (x = 'x' || x = 'X') && isHexC h then
      some (g ++ '0' :: x :: h :: r.takeWhile isHexC, (r.dropWhile isHexC).takeWhile isUL,
        (r.dropWhile isHexC).dropWhile isUL)
    else none
  | _ => none

/-- `decint` (c_parser.py:1794). -/
def decTok (s : Str) : Option (Str × Str × Str) :=
  match signTok s with
  | (g, d :: r) =>
    if d.isDigit then
      some (g ++ d :: r.takeWhile Char.isDigit, (r.dropWhile Char.isDigit).takeWhile isUL,
        (r.dropWhile Char.isDigit).dropWhile isUL)
    else none
  | _ => none

/-- `[eE][+-]?\d+`. -/
def expoTok : Str → Option (Str × Str)
  | e :: s =>
    if e = 'e' || e = 'E' then
      let g := match s with
        | '+' :: s => (['+'], s)
        | '-' :: s => (['-'], s)
        | s => ([], s)
      match g.2.takeWhile Char.isDigit with
      | [] => none
      | ds => some (e :: g.1 ++ ds, g.2.dropWhile Char.isDigit)
    else none
  | [] => none

/-- The mantissa `\d(\.\d*)?` or `\.\d+`, and whether it contains a point. -/
def mantTok : Str → Option (Bool × Str × Str)
  | '.' :: s =>
    match s.takeWhile Char.isDigit with
    | [] => none
    | ds => some (true, '.' :: ds, s.dropWhile Char.isDigit)
  | d :: '.' :: s =>
    if d.isDigit then some (true, d :: '.' :: s.takeWhile Char.isDigit, s.dropWhile Char.isDigit) else none
  | d :: s => if d.isDigit then some (false, [d], s) else none
  | [] => none

/-- `floating` (c_parser.py:1798): one digit in front of the point at most. -/
def floatTok (s : Str) : Option (Str × Str × Str) :=
  match mantTok (signTok s).2 with
  | none => none
  | some (pt, m, r) =>
    match expoTok r with
    | some (e, r) => some ((signTok s).1 ++ m ++ e, [], r)
    | none => if pt then some ((signTok s).1 ++ m, [], r) else none

/-- `integer` (c_parser.py:1795). -/
def integerTok (s : Str) : Option (Str × Str × Str) := (hexTok s).or (decTok s)

/-- The number without suffix and the position after it. -/
def numEnd (p : Str × Str × Str) : Str × Pos := (p.1, posAfter (p.1 ++ p.2.1) p.2.2)

/-- `integer` after white space. -/
def integerP (x : Pos) : Option (Str × Pos) := (integerTok x.skip.rest).map numEnd

/-- `number` (c_parser.py:1799). -/
def numberP (x : Pos) : Option (Str × Pos) :=
  ((floatTok x.skip.rest).or (integerTok x.skip.rest)).map numEnd

/-- `oneOf` with the operators sorted so that a longer one comes before its prefixes. -/
def oneOfP (ops : List Str) (x : Pos) : Option (Str × Pos) :=
  (ops.find? (startsWith x.skip.rest)).map (fun o => (o, posAfter o (x.skip.rest.drop o.length)))

/-- `bi_operator` (c_parser.py:1802). -/
def biOps : List Str :=
  [c%"||", c%"&&", c%"==", c%"!=", c%">=", c%"<=", c%"->", c%"::", c%"<<", c%">>", c%"+", c%"-", c%"/", c%"*",
   c%"|", c%"&", c%"!", c%"~", c%"^", c%"%", c%">", c%"<", c%".", c%"=", c%"?", c%":"]

/-- `uni_right_operator` (c_parser.py:1803). -/
def rightOps : List Str := [c%"++", c%"--"]

/-- `uni_left_operator` (c_parser.py:1804); `sizeof` and `new` need not be whole words. -/
def leftOps : List Str := [c%"++", c%"--", c%"sizeof", c%"new", c%"-", c%"+", c%"*"]

/-- `ZeroOrMore(oneOf(ops))`; every round reads a character. -/
def opsLoop (ops : List Str) : Nat → Pos → List Str × Pos
  | 0, x => ([], x)
  | n + 1, x =>
    match oneOfP ops x with
    | some (o, y) => let r := opsLoop ops n y; (o :: r.1, r.2)
    | none => ([], x)

/-- A parser without side effects. -/
abbrev PP (α : Type) := Pos → Option (α × Pos)

/-- `ZeroOrMore("," + p)`. -/
def commaLoop {α : Type} (p : PP α) : Nat → Pos → List α × Pos
  | 0, x => ([], x)
  | n + 1, x =>
    match lit ',' x with
    | none => ([], x)
    | some y =>
      match p y with
      | none => ([], x)
      | some (a, z) => let r := commaLoop p n z; (a :: r.1, r.2)

/-- `delimitedList(p)`. -/
def delimited {α : Type} (p : PP α) (x : Pos) : Option (List α × Pos) :=
  match p x with
  | none => none
  | some (a, y) => let r := commaLoop p y.rest.length y; some (a :: r.1, r.2)

/-- `"(" + Optional(delimitedList(expression)) + ")"` after an identifier (c_parser.py:1914). -/
def callP (rec : PP Str) (x : Pos) : Option (List Str × Pos) :=
  match lit '(' x with
  | none => none
  | some y =>
    let r := (delimited rec y).getD ([], y)
    (lit ')' r.2).map (fun z => (c%"(" :: r.1 ++ [c%")"], z))

/-- `"[" + expression + "]"` repeated (c_parser.py:1915). -/
def indexLoop (rec : PP Str) : Nat → Pos → List Str × Pos
  | 0, x => ([], x)
  | n + 1, x =>
    match (lit '[' x).bind rec with
    | none => ([], x)
    | some (e, y) =>
      match lit ']' y with
      | none => ([], x)
      | some z => let r := indexLoop rec n z; (c%"[" :: e :: c%"]" :: r.1, r.2)

/-- The core of an atom (c_parser.py:1912-1922). -/
def coreP (cfg : Cfg) (rec : PP Str) (x : Pos) : Option (List Str × Pos) :=
  match identP cfg x with
  | some (i, y) =>
    match callP rec y with
    | some (ts, z) => some (i :: ts, z)
    | none => let r := indexLoop rec y.rest.length y; some (i :: r.1, r.2)
  | none =>
    match numberP x with
    | some (t, y) => some ([t], y)
    | none =>
      match quotedTok x with
      | some (t, y) => some ([t], y)
      | none =>
        match (lit '(' x).bind rec with
        | none => none
        | some (e, y) => (lit ')' y).map (fun z => ([c%"(", e, c%")"], z))

/-- `Optional("(" + ident + ")").suppress()` (c_parser.py:1912). -/
def castP (cfg : Cfg) (x : Pos) : Pos :=
  match (lit '(' x).bind (identP cfg) with
  | none => x
  | some (_, y) => (lit ')' y).getD x

/-- The end of an atom: its core and the operators after it. -/
def atomEnd (cfg : Cfg) (rec : PP Str) (ops : List Str) (x : Pos) : Option (List Str × Pos) :=
  match coreP cfg rec x with
  | none => none
  | some (ts, y) => let r := opsLoop rightOps y.rest.length y; some (ops ++ ts ++ r.1, r.2)

/-- `atom = cast_atom | uncast_atom` (c_parser.py:1910-1941). -/
def atomP (cfg : Cfg) (rec : PP Str) (x : Pos) : Option (List Str × Pos) :=
  let l := opsLoop leftOps x.rest.length x
  (atomEnd cfg rec l.1 (castP cfg l.2)).or (atomEnd cfg rec l.1 l.2)

/-- `ZeroOrMore(bi_operator + atom)`. -/
def biLoop (cfg : Cfg) (rec : PP Str) : Nat → Pos → List Str × Pos
  | 0, x => ([], x)
  | n + 1, x =>
    match oneOfP biOps x with
    | none => ([], x)
    | some (o, y) =>
      match atomP cfg rec y with
      | none => ([], x)
      | some (ts, z) => let r := biLoop cfg rec n z; (o :: ts ++ r.1, r.2)

/-- `expression` (c_parser.py:1943-1944) with a bound on the nesting: the tokens joined by blanks.
`Props.Grammar` proves that the length of the text is a sufficient bound. -/
def exprN (cfg : Cfg) : Nat → PP Str
  | 0, _ => none
  | n + 1, x =>
    match atomP cfg (exprN cfg n) x with
    | none => none
    | some (ts, y) =>
      let r := biLoop cfg (exprN cfg n) y.rest.length y
      some (joinC ' ' (ts ++ r.1), r.2)

/-- `expression` (c_parser.py:1943-1944). -/
def exprP (cfg : Cfg) (x : Pos) : Option (Str × Pos) := exprN cfg (x.rest.length + 1) x

/-! ### Declarations -/

/-- What the grammar depends on: configuration, extra modifiers, evaluation of expressions, packing in
force as a function of the length of the remaining text, names of types that failed. -/
structure Gram where
  cfg : Cfg
  mods : List Str
  ev : EvalExpr
  pack : Nat → Option Nat
  junk : Str → Str

/-- A parser with side effects on the definition tables, which are kept when it fails. -/
abbrev SP (α : Type) := Store DefVal → Pos → Store DefVal × Option (α × Pos)

/-- The recursive elements: `type_spec`, `declarator`, `abstract_declarator`. -/
structure Rec where
  type : SP (List Str × Str)
  decl : SP Decl
  abs : SP Decl

/-- `fund_type`: `OneOrMore(kwl(...))` (c_parser.py:1906-1908), from the second word on. -/
def fundLoop (cfg : Cfg) : Nat → Pos → List Str × Pos
  | 0, x => ([], x)
  | n + 1, x =>
    match kwl (fundWords cfg) x with
    | some (w, y) => let r := fundLoop cfg n y; (w :: r.1, r.2)
    | none => ([], x)

/-- `fund_type` (c_parser.py:1906-1908). -/
def fundP (cfg : Cfg) (x : Pos) : Option (Str × Pos) :=
  match kwl (fundWords cfg) x with
  | none => none
  | some (w, y) => let r := fundLoop cfg y.rest.length y; some (joinC ' ' (w :: r.1), r.2)

/-- `extra_modifier` (c_parser.py:1897-1900). -/
def modLoop (mods : List Str) : Nat → Pos → Pos
  | 0, x => x
  | n + 1, x =>
    match kwl mods x with
    | some (_, y) => modLoop mods n ((nestedP '(' ')' y).getD y)
    | none => x

/-- `ZeroOrMore("," + p)` for a parser with side effects. -/
def commaLoopS {α : Type} (p : SP α) : Nat → Store DefVal → Pos → Store DefVal × (List α × Pos)
  | 0, s, x => (s, ([], x))
  | n + 1, s, x =>
    match lit ',' x with
    | none => (s, ([], x))
    | some y =>
      match p s y with
      | (s, none) => (s, ([], x))
      | (s, some (a, z)) =>
        match commaLoopS p n s z with
        | (s, (as, u)) => (s, (a :: as, u))

/-- `delimitedList(p)` for a parser with side effects. -/
def delimitedS {α : Type} (p : SP α) : SP (List α) := fun s x =>
  match p s x with
  | (s, none) => (s, none)
  | (s, some (a, y)) =>
    match commaLoopS p y.rest.length s y with
    | (s, (as, z)) => (s, some (a :: as, z))

/-- The initializer of a variable (c_parser.py:1302-1312): `Optional("=" + (expression | "{" list "}"))`. -/
def initP (cfg : Cfg) (x : Pos) : Init × Pos :=
  match lit '=' x with
  | none => (.none, x)
  | some y =>
    match exprP cfg y with
    | some (e, z) => (.value e, z)
    | none =>
      match (lit '{' y).bind (delimited (exprP cfg)) with
      | none => (.none, x)
      | some (es, z) =>
        match delim '}' z with
        | none => (.none, x)
        | some u => (.values es, u)

/-- `storage_class_spec` (c_parser.py:1895). -/
def storageP (x : Pos) : Pos :=
  match kwl storageWords x with
  | some (_, y) => y
  | none => x

/-- A variable declaration without its parse action (c_parser.py:1297-1315). -/
structure VarDecl where
  tq : List Str
  tn : Str
  decls : List Decl
  ini : Init

/-- `variable_decl` without its parse action (c_parser.py:1297-1315). -/
def varP (g : Gram) (r : Rec) : SP VarDecl := fun s x =>
  match r.type s (storageP x) with
  | (s, none) => (s, none)
  | (s, some ((tq, tn), y)) =>
    match delimitedS r.decl s y with
    | (s, o) =>
      let (ds, z) := o.getD ([], y)
      let (i, u) := initP g.cfg z
      match delim ';' u with
      | none => (s, none)
      | some v => (s, some (⟨tq, tn, ds, i⟩, v))

/-- `Optional(declarator_list)`. -/
def optDecls (r : Rec) (s : Store DefVal) (x : Pos) : Store DefVal × (List Decl × Pos) :=
  match delimitedS r.decl s x with
  | (s, o) => (s, o.getD ([], x))

/-- The second alternative of `struct_member` (c_parser.py:1339-1347): a bit field. -/
def bitP (r : Rec) : SP MemberDecl := fun s x =>
  match r.type s x with
  | (s, none) => (s, none)
  | (s, some ((tq, tn), y)) =>
    match optDecls r s y with
    | (s, (ds, z)) =>
      match (delim ':' z).bind integerP with
      | none => (s, none)
      | some (b, u) =>
        match delim ';' u with
        | none => (s, none)
        | some v => (s, some (⟨tq, tn, ds, none, some b⟩, v))

/-- `declarator + nestedExpr("{", "}")`. -/
def methodP (r : Rec) : SP Unit := fun s x =>
  match r.decl s x with
  | (s, none) => (s, none)
  | (s, some (_, y)) => (s, (nestedP '{' '}' y).map (fun z => ((), z)))

/-- The third alternative of `struct_member` (c_parser.py:1348): `type_spec` and a declarator with a
body. -/
def typedMethodP (r : Rec) : SP Unit := fun s x =>
  match r.type s x with
  | (s, none) => (s, none)
  | (s, some (_, y)) => methodP r s y

/-- The member of a struct that a declaration stands for: values in braces are not recorded
(`m[0].value`, c_parser.py:1566). -/
def VarDecl.member (v : VarDecl) : MemberDecl :=
  ⟨v.tq, v.tn, v.decls, (match v.ini with | .value e => some e | _ => none), none⟩

/-- `struct_member` (c_parser.py:1336-1350): no member for a suppressed alternative. -/
def memberP (g : Gram) (r : Rec) : SP (Option MemberDecl) := fun s x =>
  match varP g r s x with
  | (s, some (v, y)) => (s, some (some v.member, y))
  | (s, none) =>
    match bitP r s x with
    | (s, some (m, y)) => (s, some (some m, y))
    | (s, none) =>
      match typedMethodP r s x with
      | (s, some (_, y)) => (s, some (none, y))
      | (s, none) =>
        match methodP r s x with
        | (s, some (_, y)) => (s, some (none, y))
        | (s, none) => (s, none)

/-- `OneOrMore(struct_member)` from the second member on. -/
def memberLoop (g : Gram) (r : Rec) : Nat → Store DefVal → Pos → Store DefVal × (List MemberDecl × Pos)
  | 0, s, x => (s, ([], x))
  | n + 1, s, x =>
    match memberP g r s x with
    | (s, none) => (s, ([], x))
    | (s, some (m, y)) =>
      match memberLoop g r n s y with
      | (s, (ms, z)) => (s, (m.toList ++ ms, z))

/-- `decl_list` (c_parser.py:1352-1354). -/
def bodyP (g : Gram) (r : Rec) : SP (List MemberDecl) := fun s x =>
  match delim '{' x with
  | none => (s, none)
  | some y =>
    match memberP g r s y with
    | (s, none) => (s, none)
    | (s, some (m, z)) =>
      match memberLoop g r (z.rest.length + 1) s z with
      | (s, (ms, u)) => (s, (delim '}' u).map (fun v => (m.toList ++ ms, v)))

/-- An optional identifier. -/
def optIdent (cfg : Cfg) (x : Pos) : Option Str × Pos :=
  match identP cfg x with
  | some (i, y) => (some i, y)
  | none => (none, x)

/-- The keyword of a struct or union. -/
def structKw (x : Pos) : Option (Bool × Pos) :=
  match keyword c%"struct" x with
  | some y => some (false, y)
  | none => (keyword c%"union" x).map (fun y => (true, y))

/-- `struct_type` with `process_struct` (c_parser.py:1355-1359): the name of the type. -/
def structP (g : Gram) (r : Rec) : SP Str := fun s x =>
  match structKw x with
  | none => (s, none)
  | some (union, y) =>
    let (name, z) := optIdent g.cfg y
    match bodyP g r s z with
    | (s, some (ms, u)) => finish s union name ms x u
    | (s, none) =>
      match identP g.cfg y with
      | none => (s, none)
      | some (i, u) => finish s union (some i) [] x u
where
  /-- The parse action. -/
  finish (s : Store DefVal) (union : Bool) (name : Option Str) (ms : List MemberDecl) (x u : Pos) :
      Store DefVal × Option (Str × Pos) :=
    match procStruct g.ev s union name ms (g.pack x.skip.rest.length) with
    | (s, n) => (s, some (n.getD (g.junk x.rest), u))

/-- One enumerator (c_parser.py:1364-1366). -/
def enumeratorP (cfg : Cfg) (x : Pos) : Option ((Str × Option Str) × Pos) :=
  match identP cfg x with
  | none => none
  | some (i, y) =>
    match (lit '=' y).bind (exprP cfg) with
    | none => some ((i, none), y)
    | some (e, z) => some ((i, some e), z)

/-- The body of an enum (c_parser.py:1370-1374). -/
def enumBodyP (cfg : Cfg) (x : Pos) : Option (List (Str × Option Str) × Pos) :=
  match (delim '{' x).bind (delimited (enumeratorP cfg)) with
  | none => none
  | some (ms, y) => (delim '}' ((delim ',' y).getD y)).map (fun z => (ms, z))

/-- `enum_type` with `process_enum` (c_parser.py:1368-1378). -/
def enumP (g : Gram) : SP Str := fun s x =>
  match keyword c%"enum" x with
  | none => (s, none)
  | some y =>
    match enumBodyP g.cfg (optIdent g.cfg y).2 with
    | some (ms, u) => finish s (optIdent g.cfg y).1 ms x u
    | none =>
      match identP g.cfg y with
      | none => (s, none)
      | some (i, u) => finish s (some i) [] x u
where
  /-- The parse action. -/
  finish (s : Store DefVal) (name : Option Str) (ms : List (Str × Option Str)) (x u : Pos) :
      Store DefVal × Option (Str × Pos) :=
    match procEnum g.ev s name ms with
    | (s, n) => (s, some (n.getD (g.junk x.rest), u))

/-- The name of a type: `type_` (c_parser.py:1194-1202).  The optional size or sign modifier in front of
`ident` never matches, because `fund_type` would have. -/
def typeNameP (g : Gram) (r : Rec) : SP Str := fun s x =>
  match fundP g.cfg x with
  | some p => (s, some p)
  | none =>
    match identP g.cfg x with
    | some p => (s, some p)
    | none =>
      match structP g r s x with
      | (s, some p) => (s, some p)
      | (s, none) => enumP g s x

/-- `type_spec` (c_parser.py:1194-1205). -/
def typeSpecP (g : Gram) (r : Rec) : SP (List Str × Str) := fun s x =>
  match typeNameP g r s (qualP g.cfg x).2 with
  | (s, none) => (s, none)
  | (s, some (n, y)) => (s, some (((qualP g.cfg x).1, n), modLoop g.mods y.rest.length y))

/-- `call_conv` (c_parser.py:1881). -/
def convP (x : Pos) : Option Str × Pos :=
  match keyword c%"__cdecl" x with
  | some y => (some c%"__cdecl", y)
  | none =>
    match keyword c%"__stdcall" x with
    | some y => (some c%"__stdcall", y)
    | none => (none, x)

/-- `ZeroOrMore(Group("*" + type_qualifier))` (c_parser.py:1228, 1257). -/
def ptrLoop (cfg : Cfg) : Nat → Pos → List (List Str) × Pos
  | 0, x => ([], x)
  | n + 1, x =>
    match lit '*' x with
    | none => ([], x)
    | some y => let q := qualP cfg y; let r := ptrLoop cfg n q.2; (q.1 :: r.1, r.2)

/-- `ZeroOrMore(lbrack + Optional(expression, default="-1") + rbrack)` (c_parser.py:1249-1251). -/
def arrayLoop (cfg : Cfg) : Nat → Pos → List Str × Pos
  | 0, x => ([], x)
  | n + 1, x =>
    match lit '[' x with
    | none => ([], x)
    | some y =>
      let e := (exprP cfg y).getD (c%"-1", y)
      match delim ']' e.2 with
      | none => ([], x)
      | some z => let r := arrayLoop cfg n z; (e.1 :: r.1, r.2)

/-- One parameter (c_parser.py:1237-1243, 1266-1272); `d` is the declarator in it. -/
structure ParamTok where
  tq : List Str
  tn : Str
  d : Decl
  val : Option Str

/-- The default value of a parameter. -/
def defaultP (cfg : Cfg) (x : Pos) : Option Str × Pos :=
  match (lit '=' x).bind (exprP cfg) with
  | none => (none, x)
  | some (e, y) => (some e, y)

/-- One parameter; `dp` is the parser of its declarator. -/
def paramP (g : Gram) (r : Rec) (dp : SP Decl) : SP ParamTok := fun s x =>
  match r.type s x with
  | (s, none) => (s, none)
  | (s, some ((tq, tn), y)) =>
    match dp s y with
    | (s, none) => (s, none)
    | (s, some (d, z)) => (s, some (⟨tq, tn, d, (defaultP g.cfg z).1⟩, (defaultP g.cfg z).2))

/-- The parameters as they are in `Decl`. -/
def toArgs : List ParamTok → ArgList
  | [] => .nil
  | p :: ps => .cons p.tq p.tn p.d p.val (toArgs ps)

/-- `Optional(lparen + Optional(delimitedList(...), default=None) + rparen)("args")` (c_parser.py:1233-1248,
1262-1277): whether there is a parameter list, and the parameters. -/
def argsP (g : Gram) (r : Rec) (dp : SP Decl) (s : Store DefVal) (x : Pos) :
    Store DefVal × ((Bool × ArgList) × Pos) :=
  match lit '(' x with
  | none => (s, ((false, .nil), x))
  | some y =>
    match delimitedS (paramP g r dp) s y with
    | (s, o) =>
      let (ps, z) := o.getD ([], y)
      match delim ')' z with
      | none => (s, ((false, .nil), x))
      | some u => (s, ((true, toArgs ps), u))

/-- `self.declarator | self.abstract_declarator` (c_parser.py:1268). -/
def anyDecl (r : Rec) : SP Decl := fun s x =>
  match r.decl s x with
  | (s, some p) => (s, some p)
  | (s, none) => r.abs s x

/-- The core of a declarator (c_parser.py:1258-1261): reference, core. -/
def declCoreP (g : Gram) (r : Rec) : SP (Bool × Core) := fun s x =>
  match refName x with
  | some p => (s, some p)
  | none =>
    match lit '(' x with
    | none => (s, none)
    | some y =>
      match r.decl s y with
      | (s, none) => (s, none)
      | (s, some (d, z)) => (s, (delim ')' z).map (fun u => ((false, .center d), u)))
where
  /-- `Optional("&") + ident`. -/
  refName (x : Pos) : Option ((Bool × Core) × Pos) :=
    match lit '&' x with
    | some y => (identP g.cfg y).map (fun p => ((true, .name p.1), p.2))
    | none => (identP g.cfg x).map (fun p => ((false, .name p.1), p.2))

/-- `declarator` (c_parser.py:1254-1283). -/
def declP (g : Gram) (r : Rec) : SP Decl := fun s x =>
  let q := qualP g.cfg x
  let c := convP q.2
  let p := ptrLoop g.cfg c.2.rest.length c.2
  match declCoreP g r s p.2 with
  | (s, none) => (s, none)
  | (s, some ((ref, core), y)) =>
    match argsP g r (anyDecl r) s y with
    | (s, ((h, as), z)) =>
      let a := arrayLoop g.cfg z.rest.length z
      (s, some (.mk q.1 c.1 p.1 ref core h as a.1, a.2))

/-- `abstract_declarator` (c_parser.py:1225-1252); `Optional("&")` always matches, so that the alternative
in parentheses is never tried. -/
def absP (g : Gram) (r : Rec) : SP Decl := fun s x =>
  let q := qualP g.cfg x
  let p := ptrLoop g.cfg q.2.rest.length q.2
  let ref := lit '&' p.2
  match argsP g r r.abs s (ref.getD p.2) with
  | (s, ((h, as), z)) =>
    let a := arrayLoop g.cfg z.rest.length z
    (s, some (.mk q.1 none p.1 ref.isSome .abs h as a.1, a.2))

/-- The recursive elements with a bound on the nesting.  `Props.Grammar` proves that the length of the
text is a sufficient bound. -/
def gram (g : Gram) : Nat → Rec
  | 0 => ⟨fun s _ => (s, none), fun s _ => (s, none), fun s _ => (s, none)⟩
  | n + 1 => ⟨typeSpecP g (gram g n), declP g (gram g n), absP g (gram g n)⟩

/-! ### Top level -/

/-- What one attempt at a position gives. -/
inductive Top where
  | fail
  | next (x : Pos)
  | raised (e : PyErr)

/-- `type_decl` without its parse action (c_parser.py:1287-1292). -/
def typedefP (r : Rec) : SP ((List Str × Str) × List Decl) := fun s x =>
  match keyword c%"typedef" x with
  | none => (s, none)
  | some y =>
    match r.type s y with
    | (s, none) => (s, none)
    | (s, some (t, z)) =>
      match delimitedS r.decl s z with
      | (s, none) => (s, none)
      | (s, some (ds, u)) => (s, (delim ';' u).map (fun v => ((t, ds), v)))

/-- `function_decl` without its parse action (c_parser.py:1322-1327). -/
def functionP (r : Rec) : SP ((List Str × Str) × Decl) := fun s x =>
  match r.type s (storageP x) with
  | (s, none) => (s, none)
  | (s, some (t, y)) =>
    match r.decl s y with
    | (s, none) => (s, none)
    | (s, some (d, z)) => (s, (nestedP '{' '}' z).map (fun u => ((t, d), u)))

/-- `self.parser` (c_parser.py:1381) with the parse actions of its three alternatives. -/
def topP (g : Gram) (r : Rec) (s : Store DefVal) (x : Pos) : Store DefVal × Top :=
  match typedefP r s x with
  | (s, some (((tq, tn), ds), y)) =>
    match procTypedef g.ev s tq tn ds with
    | (s, none) => (s, .next y)
    | (s, some e) => (s, .raised e)
  | (s, none) =>
    match varP g r s x with
    | (s, some (v, y)) => (procVariable g.ev s v.tq v.tn v.decls v.ini, .next y)
    | (s, none) =>
      match functionP r s x with
      | (s, some (((tq, tn), d), y)) => (procFunction g.ev s tq tn d, .next y)
      | (s, none) => (s, .fail)

/-- `scanString` (c_parser.py:1182): where nothing matches one character is skipped.  Every round reads a
character. -/
def scan (g : Gram) (n : Nat) : Nat → Store DefVal → Pos → Store DefVal × Option PyErr
  | 0, s, _ => (s, none)
  | k + 1, s, x =>
    match x.skip.rest with
    | [] => (s, none)
    | c :: t =>
      match topP g (gram g n) s x.skip with
      | (s, .raised e) => (s, some e)
      | (s, .next y) => scan g n k s y
      | (s, .fail) => scan g n k s ⟨c, t⟩

/-- `parse_defs` (c_parser.py:1156-1182) on the text of a file, after `current_file` has been set. -/
def parseDefs (g : Gram) (s : Store DefVal) (text : Str) : Store DefVal × Option PyErr :=
  scan g (text.length + 1) (text.length + 1) s ⟨' ', text⟩

end Pyclib
