import Verif.Model.Types
import Verif.Model.Store
import Verif.Model.Preproc
/-
Model of the processing of parsed declarations (/repo/pyclibrary/c_parser.py:1384-1656):
`process_declarator`, `process_type`, `process_enum`, `process_function`, `process_struct`,
`process_variable`, `process_typedef`, `eval_expr`.

The starting point is the tree of tokens that the grammar of `build_parser` (1184-1382) produces: one
constructor argument per named result.  Evaluation of C expressions as Python expressions
(`CParser.eval`, 1658-1665) is a parameter `ev`: it gets the table `defs["values"]` and the text.
Logging is left out.
-/
namespace Pyclib

/-- Python values that expressions evaluate to: `None` (also: evaluation failed), integers (also booleans),
lists of such (array initializers), strings, the float next to a rational number, anything else (types,
functions, tuples; adding 1 to them raises `TypeError`).  Simplification: rounding is left out, so `flt q + 1`
is `flt (q + 1)`. -/
inductive PVal where
  | none
  | int (i : Int)
  | list (l : List (Option Int))
  | str (s : Str)
  | flt (q : Rat)
  | other
  deriving DecidableEq

/-- A list element or array length: integers are kept, everything else is `none`. -/
def PVal.dim : PVal → Option Int
  | .int i => some i
  | _ => Option.none

mutual
/-- Tokens of a declarator or abstract declarator (c_parser.py:1222-1283): the qualifiers in front, the
calling convention, the qualifiers after each `*`, whether there is a `&`, the core, whether there is a
parameter list, its parameters, the texts of the array lengths (`-1` for `[]`). -/
inductive Decl where
  | mk (first : List Str) (conv : Option Str) (ptrs : List (List Str)) (ref : Bool) (core : Core)
      (hasArgs : Bool) (args : ArgList) (arrays : List Str)
/-- What the declarator is built around: a name, nothing, or a declarator in parentheses. -/
inductive Core where
  | name (n : Str)
  | abs
  | center (d : Decl)
/-- Parameters: qualifiers and name of the type, declarator, default value. -/
inductive ArgList where
  | nil
  | cons (tq : List Str) (tn : Str) (d : Decl) (val : Option Str) (rest : ArgList)
end

/-- Modifiers of one level before those of the center, apart from the parameter list
(c_parser.py:1396-1406). -/
def levelToks (ev : Str → PVal) (conv : Option Str) (ptrs : List (List Str)) (arrays : List Str) : List CMod :=
  (match conv with | some c => [.sym c] | none => []) ++ ptrs.map (fun _ => .sym c%"*") ++
    arrays.map (fun x => .arr [(ev x).dim])

/-- The qualifier groups that go with `levelToks`, preceded by the one in front
(c_parser.py:1392, 1398, 1402, 1406). -/
def levelQuals (first : List Str) (conv : Option Str) (ptrs : List (List Str)) (arrays : List Str) : List Qual :=
  some first :: ((match conv with | some _ => [none] | none => []) ++ ptrs.map some ++
    arrays.map (fun _ => some []))

/-- The `Type` built by `process_type` (c_parser.py:1468-1472). -/
def typeOf (tq : List Str) (tn : Str) (toks : List CMod) : List Qual → Except PyErr CType
  | [] => .error .indexError
  | q :: qs =>
    match qualAdd (some tq) q with
    | .error e => .error e
    | .ok q' => mkType tn toks (some (q' :: qs))

mutual
/-- `CParser.process_declarator` (c_parser.py:1384-1436). -/
def procDecl (ev : Str → PVal) : Decl → Except PyErr (Option Str × List CMod × List Qual)
  | .mk first conv ptrs ref core hasArgs args arrays =>
    match procArgs ev args with
    | .error e => if hasArgs then .error e else procCore ev ref core
        (levelToks ev conv ptrs arrays) (levelQuals first conv ptrs arrays)
    | .ok ps => procCore ev ref core
        (levelToks ev conv ptrs arrays ++ if hasArgs then [.fn ps] else [])
        (levelQuals first conv ptrs arrays ++ if hasArgs then [some []] else [])
/-- The end of `process_declarator`: reference, center, name (c_parser.py:1422-1436). -/
def procCore (ev : Str → PVal) (ref : Bool) : Core → List CMod → List Qual →
    Except PyErr (Option Str × List CMod × List Qual)
  | .name n, toks, quals =>
    .ok (some n, toks ++ (if ref then [.sym c%"&"] else []), quals ++ if ref then [some []] else [])
  | .abs, toks, quals =>
    .ok (none, toks ++ (if ref then [.sym c%"&"] else []), quals ++ if ref then [some []] else [])
  | .center d, toks, quals =>
    match procDecl ev d with
    | .error e => .error e
    | .ok (n, t, q) =>
      match joinQuals (quals ++ if ref then [some []] else []) q with
      | .error e => .error e
      | .ok q' => .ok (n, toks ++ (if ref then [.sym c%"&"] else []) ++ t, q')
/-- The parameters of `process_declarator` (c_parser.py:1408-1421), each by `process_type`. -/
def procArgs (ev : Str → PVal) : ArgList → Except PyErr (List Param)
  | .nil => .ok []
  | .cons tq tn d val rest =>
    match procDecl ev d with
    | .error e => .error e
    | .ok (n, toks, quals) =>
      match typeOf tq tn toks quals with
      | .error e => .error e
      | .ok t =>
        match procArgs ev rest with
        | .error e => .error e
        | .ok ps => .ok ((n, t, val) :: ps)
end

/-- `CParser.process_type` (c_parser.py:1438-1472). -/
def procType (ev : Str → PVal) (tq : List Str) (tn : Str) (d : Decl) : Except PyErr (Option Str × CType) :=
  match procDecl ev d with
  | .error e => .error e
  | .ok (n, toks, quals) =>
    match typeOf tq tn toks quals with
    | .error e => .error e
    | .ok t => .ok (n, t)

/-- A struct or union member tuple `(name, type, value[, bit width])` (c_parser.py:1573-1586). -/
structure Member where
  name : Option Str
  type : CType
  val : PVal
  bit : Option Int

/-- The recorded definitions, by kind: types, functions, variables, values, enums, structs and unions
(`Compound`, 260-312), macros, function macros (format template and parameter indices, see
`Model.Macro`). -/
inductive DefVal where
  | type (t : CType)
  | func (h : HType)
  | var (v : PVal) (t : CType)
  | value (v : PVal)
  | enum (d : Dict Str PVal)
  | compound (members : List Member) (pack : Option Nat)
  | macro (s : Str)
  | fnmacro (f : Str × List Nat)

/-- Evaluation of an expression (`CParser.eval_expr`, 1633-1656, with `CParser.eval`, 1658-1665): gets
the table `defs["values"]`; never raises. -/
abbrev EvalExpr := Dict Str DefVal → Str → PVal

/-- The evaluation in the current state. -/
def evIn (ev : EvalExpr) (s : Store DefVal) : Str → PVal := ev (s.defs .values)

/-- The loop that looks for an unused name `pre0`, `pre1`, ... (c_parser.py:1479-1484, 1548-1553),
with a bound on the number of rounds; `Props.Decl` proves the bound is never reached. -/
def anonLoop (pre : Str) (used : Str → Bool) : Nat → Nat → Str
  | 0, n => pre ++ natDigits n
  | k + 1, n => if used (pre ++ natDigits n) then anonLoop pre used k (n + 1) else pre ++ natDigits n

/-- The name given to an anonymous enum, struct or union. -/
def anonName (pre : Str) (d : Dict Str DefVal) : Str := anonLoop pre (dhas d) d.length 0

/-- The loop over the enumerators (c_parser.py:1495-1504): state, result or exception. -/
def enumLoop (ev : EvalExpr) : Store DefVal → PVal → Dict Str PVal → List (Str × Option Str) →
    Store DefVal × Except PyErr (Dict Str PVal)
  | s, _, enum, [] => (s, .ok enum)
  | s, i, enum, (n, e) :: ms =>
    let i := match e with
      | some e => evIn ev s e
      | none => i
    let enum := dset enum n i
    let s := addDef s .values n (.value i)
    match i with
    | .int k => enumLoop ev s (.int (k + 1)) enum ms
    | .flt q => enumLoop ev s (.flt (q + 1)) enum ms
    | _ => (s, .error .typeError)

/-- `CParser.process_enum` (c_parser.py:1474-1510): new state and the string returned to the grammar
(`none` if an exception was logged). -/
def procEnum (ev : EvalExpr) (s : Store DefVal) (name : Option Str) (members : List (Str × Option Str)) :
    Store DefVal × Option Str :=
  let name := name.getD (anonName c%"anon_enum" (s.defs .enums))
  if dhas (s.defs .enums) name then (s, some (c%"enum " ++ name))
  else
    match enumLoop ev s (.int 0) [] members with
    | (s, .error _) => (s, none)
    | (s, .ok enum) =>
      let s := addDef s .enums name (.enum enum)
      (addDef s .types (c%"enum " ++ name) (.type ⟨c%"enum", [.sym name], [some [], some []]⟩),
        some (c%"enum " ++ name))

/-- A member declaration in a struct body (c_parser.py:1341-1356). -/
structure MemberDecl where
  tq : List Str
  tn : Str
  decls : List Decl
  value : Option Str
  bit : Option Str

/-- Python's `int(text)` on an integer token: digits, possibly signed; hexadecimal numbers and suffixes
raise `ValueError`. -/
def pyInt : Str → Except PyErr Int
  | '-' :: s => if isDigits s then .ok (-(digitsVal s : Int)) else .error .valueError
  | '+' :: s => if isDigits s then .ok (digitsVal s : Int) else .error .valueError
  | s => if isDigits s then .ok (digitsVal s : Int) else .error .valueError

/-- `int(m[0].bit)` if there is a bit width (c_parser.py:1575-1576, 1582-1583). -/
def bitOf : Option Str → Except PyErr (Option Int)
  | none => .ok none
  | some b => match pyInt b with | .ok i => .ok (some i) | .error e => .error e

/-- The members of one declarator list (c_parser.py:1579-1588). -/
def memberDecls (ev : Str → PVal) (tq : List Str) (tn : Str) (val : PVal) (bit : Option Str) :
    List Decl → Except PyErr (List Member)
  | [] => .ok []
  | d :: ds =>
    match procType ev tq tn d with
    | .error e => .error e
    | .ok (n, t) =>
      match bitOf bit with
      | .error e => .error e
      | .ok b =>
        match memberDecls ev tq tn val bit ds with
        | .error e => .error e
        | .ok ms => .ok (⟨n, t, val, b⟩ :: ms)

/-- The members of one member declaration (c_parser.py:1565-1588); for an anonymous member the type is
`Type(typ[0])`, the first qualifier if there is one. -/
def memberOf (ev : Str → PVal) (m : MemberDecl) : Except PyErr (List Member) :=
  let val := match m.value with
    | some e => ev e
    | none => .none
  match m.decls with
  | [] =>
    match bitOf m.bit with
    | .error e => .error e
    | .ok b => .ok [⟨none, ⟨(m.tq ++ [m.tn]).headD [], [], [some []]⟩, .none, b⟩]
  | ds => memberDecls ev m.tq m.tn val m.bit ds

/-- The loop over the member declarations (c_parser.py:1564-1588). -/
def membersOf (ev : Str → PVal) : List MemberDecl → Except PyErr (List Member)
  | [] => .ok []
  | m :: ms =>
    match memberOf ev m with
    | .error e => .error e
    | .ok a =>
      match membersOf ev ms with
      | .error e => .error e
      | .ok b => .ok (a ++ b)

/-- The table used for a struct or union. -/
def compKind (union : Bool) : Kind := if union then .unions else .structs

/-- `str_typ` (c_parser.py:1542). -/
def compWord (union : Bool) : Str := if union then c%"union" else c%"struct"

/-- `CParser.process_struct` (c_parser.py:1539-1598); `pack` is `packing_at` at the line of the
definition.  The comparison of a recorded definition with `{}` is never true. -/
def procStruct (ev : EvalExpr) (s : Store DefVal) (union : Bool) (name : Option Str)
    (members : List MemberDecl) (pack : Option Nat) : Store DefVal × Option Str :=
  let k := compKind union
  let w := compWord union
  let name := name.getD (anonName (c%"anon_" ++ w) (s.defs k))
  if members ≠ [] ∨ dhas (s.defs k) name = false then
    match membersOf (evIn ev s) members with
    | .error _ => (s, none)
    | .ok ms =>
      let s := addDef s k name (.compound ms pack)
      (addDef s .types (w ++ ' ' :: name) (.type ⟨w, [.sym name], [some [], some []]⟩), some (w ++ ' ' :: name))
  else (s, some (w ++ ' ' :: name))

/-- Initializer of a variable (c_parser.py:1302-1311). -/
inductive Init where
  | none
  | value (e : Str)
  | values (es : List Str)

/-- `eval_expr` of a declaration (c_parser.py:1641-1650); an element that fails makes the result
`None`. -/
def initVal (ev : Str → PVal) : Init → PVal
  | .none => .none
  | .value e => ev e
  | .values es => if es.any (fun e => ev e = .none) then .none else .list (es.map fun e => (ev e).dim)

/-- `type(typ[-1]) is tuple` (c_parser.py:1609, 1518). -/
def isFnType (t : CType) : Bool :=
  match t.mods.getLast? with
  | some (.fn _) => true
  | _ => false

/-- Names are strings in `add_def`; an abstract declarator would record `None` (not possible in the
grammar: declarators in declarations have a name). -/
def nameOr (n : Option Str) : Str := n.getD []

/-- The loop of `process_variable` (c_parser.py:1605-1617) over the declarators, with the value already
evaluated; an exception ends it, keeping what was recorded. -/
def varLoop (ev : EvalExpr) (tq : List Str) (tn : Str) (val : PVal) :
    Store DefVal → List Decl → Store DefVal × Option PyErr
  | s, [] => (s, none)
  | s, d :: ds =>
    match procType (evIn ev s) tq tn d with
    | .error e => (s, some e)
    | .ok (n, t) =>
      if isFnType t then
        match addHack t with
        | .error e => (s, some e)
        | .ok h => varLoop ev tq tn val (addDef s .functions (nameOr n) (.func h)) ds
      else
        let s := addDef s .variables (nameOr n) (.var val t)
        varLoop ev tq tn val (addDef s .values (nameOr n) (.value val)) ds

/-- `CParser.process_variable` (c_parser.py:1600-1620); the exception is logged and dropped. -/
def procVariable (ev : EvalExpr) (s : Store DefVal) (tq : List Str) (tn : Str) (ds : List Decl) (ini : Init) :
    Store DefVal :=
  (varLoop ev tq tn (initVal (evIn ev s) ini) s ds).1

/-- `CParser.process_function` (c_parser.py:1512-1527): a declarator that is not a function raises
`DefinitionError`, which is logged and dropped. -/
def procFunction (ev : EvalExpr) (s : Store DefVal) (tq : List Str) (tn : Str) (d : Decl) : Store DefVal :=
  match procType (evIn ev s) tq tn d with
  | .error _ => s
  | .ok (n, t) =>
    if isFnType t then
      match addHack t with
      | .error _ => s
      | .ok h => addDef s .functions (nameOr n) (.func h)
    else s

/-- `CParser.process_typedef` (c_parser.py:1622-1629): there is no exception handler, so an exception
leaves `process_all`. -/
def typedefLoop (ev : EvalExpr) (tq : List Str) (tn : Str) :
    Store DefVal → List Decl → Store DefVal × Option PyErr
  | s, [] => (s, none)
  | s, d :: ds =>
    match procType (evIn ev s) tq tn d with
    | .error e => (s, some e)
    | .ok (n, t) => typedefLoop ev tq tn (addDef s .types (nameOr n) (.type t)) ds

/-- `CParser.process_typedef` (c_parser.py:1622-1629). -/
def procTypedef (ev : EvalExpr) (s : Store DefVal) (tq : List Str) (tn : Str) (ds : List Decl) :
    Store DefVal × Option PyErr := typedefLoop ev tq tn s ds

end Pyclib
