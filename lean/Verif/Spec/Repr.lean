import Verif.Model.Repr
import Verif.Spec.Types
/-!
Evaluation of the Python expressions that `repr` of recorded definitions may produce: what
`eval(text, {"Type": Type, "Struct": Struct, "Union": Union})` gives.  Written from the Python grammar
(displays, literals, calls with positional and keyword arguments), without reference to `repr`.
Malformed text gives `none`.
-/
namespace Pyclib.Spec

/-- Blanks between tokens. -/
def skipB (s : Str) : Str := s.dropWhile (· = ' ')

/-- Escape sequences of string literals. -/
def unesc : Char → Option Char
  | '\\' => some '\\'
  | '\'' => some '\''
  | '"' => some '"'
  | 'n' => some '\n'
  | 'r' => some '\r'
  | 't' => some '\t'
  | _ => none

/-- The rest of a string literal after the opening quotation mark. -/
def rdStr (q : Char) : Str → Option (Str × Str)
  | [] => none
  | '\\' :: [] => none
  | '\\' :: c :: r =>
    match unesc c, rdStr q r with
    | some d, some (s, r) => some (d :: s, r)
    | _, _ => none
  | c :: r =>
    if c = q then some ([], r)
    else if c = '\n' then none
    else match rdStr q r with
      | some (s, r) => some (c :: s, r)
      | none => none

/-- A decimal number (no leading zeros). -/
def rdNat (s : Str) : Option (Nat × Str) :=
  let d := s.takeWhile Char.isDigit
  if d = [] ∨ (d.head? = some '0' ∧ d ≠ ['0']) then none else some (digitsVal d, s.dropWhile Char.isDigit)

/-- A keyword and `=` in front of an argument. -/
def rdKw (s : Str) : Option (Str × Str) :=
  let w := s.takeWhile isWordC
  if w = [] then none
  else match s.dropWhile isWordC with
    | '=' :: r => some (w, r)
    | _ => none

/-- The number of items. -/
def PyObjs.len : PyObjs → Nat
  | .nil => 0
  | .cons _ l => PyObjs.len l + 1

/-- `((),) * n`. -/
def noQuals : Nat → PyObjs
  | 0 => .nil
  | n + 1 => .cons (.tup .nil) (noQuals n)

/-- `Type(spec, *declarators, type_quals=...)` (c_parser.py:117-125). -/
def typeCls : PyObjs → PyDict → Option PyObj
  | .nil, _ => none
  | .cons a l, .nil => some (.type (.cons a l) (noQuals (PyObjs.len l + 1)))
  | .cons a l, .cons k v .nil =>
    if k ≠ c%"type_quals" then none
    else if v.truthy = false then some (.type (.cons a l) (noQuals (PyObjs.len l + 1)))
    else match v with
      | .tup q => if PyObjs.len q = PyObjs.len l + 1 then some (.type (.cons a l) q) else none
      | _ => none
  | .cons _ _, .cons _ _ (.cons _ _ _) => none

/-- `Struct(*members, pack=...)` and `Union(...)` (c_parser.py:265-272). -/
def compCls (u : Bool) (args : PyObjs) : PyDict → Option PyObj
  | .nil => some (.comp u args .none)
  | .cons k v .nil => if k = c%"pack" then some (.comp u args v) else none
  | .cons _ _ (.cons _ _ _) => none

/-- A call of one of the classes. -/
def applyCls (f : Str) (args : PyObjs) (kw : PyDict) : Option PyObj :=
  if f = c%"Type" then typeCls args kw
  else if f = c%"Struct" then compCls false args kw
  else if f = c%"Union" then compCls true args kw
  else none

mutual
/-- An expression. -/
def rd : Nat → Str → Option (PyObj × Str)
  | 0, _ => none
  | f + 1, s =>
    match skipB s with
    | [] => none
    | c :: r =>
      if c = '(' then
        match rdSeq f ')' r with
        | some (.cons v .nil, false, r) => some (v, r)
        | some (l, _, r) => some (.tup l, r)
        | none => none
      else if c = '[' then
        match rdSeq f ']' r with
        | some (l, _, r) => some (.lst l, r)
        | none => none
      else if c = '{' then
        match rdDict f r with
        | some (d, r) => some (.dict d, r)
        | none => none
      else if c = '\'' ∨ c = '"' then
        match rdStr c r with
        | some (s, r) => some (.str s, r)
        | none => none
      else if c = '-' then
        match rdNat r with
        | some (n, r) => some (.int (-n), r)
        | none => none
      else if c.isDigit then
        match rdNat (c :: r) with
        | some (n, r) => some (.int n, r)
        | none => none
      else if isWordC c then
        let w := (c :: r).takeWhile isWordC
        if w = c%"None" then some (.none, (c :: r).dropWhile isWordC)
        else match (c :: r).dropWhile isWordC with
          | '(' :: r =>
            match rdArgs f r with
            | some (a, kw, r) =>
              match applyCls w a kw with
              | some v => some (v, r)
              | none => none
            | none => none
          | _ => none
      else none
/-- Expressions separated by commas up to a closing bracket; also tells whether the last thing before
the bracket was a comma. -/
def rdSeq : Nat → Char → Str → Option (PyObjs × Bool × Str)
  | 0, _, _ => none
  | f + 1, cl, s =>
    match skipB s with
    | [] => none
    | c :: r =>
      if c = cl then some (.nil, true, r)
      else match rd f (c :: r) with
        | none => none
        | some (v, s) =>
          match skipB s with
          | [] => none
          | d :: r =>
            if d = ',' then
              match rdSeq f cl r with
              | some (l, b, r) => some (.cons v l, b, r)
              | none => none
            else if d = cl then some (.cons v .nil, false, r)
            else none
/-- Arguments up to the closing parenthesis: positional ones, then keywords. -/
def rdArgs : Nat → Str → Option (PyObjs × PyDict × Str)
  | 0, _ => none
  | f + 1, s =>
    match skipB s with
    | [] => none
    | c :: r =>
      if c = ')' then some (.nil, .nil, r)
      else match rdKw (c :: r) with
        | some (k, r) =>
          match rd f r with
          | none => none
          | some (v, s) =>
            match skipB s with
            | ',' :: r =>
              match rdArgs f r with
              | some (.nil, d, r) => some (.nil, .cons k v d, r)
              | _ => none
            | ')' :: r => some (.nil, .cons k v .nil, r)
            | _ => none
        | none =>
          match rd f (c :: r) with
          | none => none
          | some (v, s) =>
            match skipB s with
            | ',' :: r =>
              match rdArgs f r with
              | some (l, d, r) => some (.cons v l, d, r)
              | none => none
            | ')' :: r => some (.cons v .nil, .nil, r)
            | _ => none
/-- The entries of a dictionary up to the closing brace; keys are string literals (repeated keys,
which `repr` never writes, are kept). -/
def rdDict : Nat → Str → Option (PyDict × Str)
  | 0, _ => none
  | f + 1, s =>
    match skipB s with
    | [] => none
    | c :: r =>
      if c = '}' then some (.nil, r)
      else if c = '\'' ∨ c = '"' then
        match rdStr c r with
        | none => none
        | some (k, s) =>
          match skipB s with
          | ':' :: r =>
            match rd f r with
            | none => none
            | some (v, s) =>
              match skipB s with
              | ',' :: r =>
                match rdDict f r with
                | some (d, r) => some (.cons k v d, r)
                | none => none
              | '}' :: r => some (.cons k v .nil, r)
              | _ => none
          | _ => none
      else none
end

/-- `eval(text)`. -/
def pyRead (s : Str) : Option PyObj :=
  match rd (3 * s.length + 3) s with
  | some (v, r) => if skipB r = [] then some v else none
  | none => none

/-- Characters that `repr` writes as in the model: printable ASCII, tab, line feed, carriage return. -/
def okC (c : Char) : Bool := (32 ≤ c.toNat && c.toNat < 127) || c = '\n' || c = '\r' || c = '\t'

mutual
/-- Objects that `repr` writes readably: every `Type` has one entry of `type_quals` per item, and no entry
is `None` unless another one is a nonempty tuple; a packed `Struct` has a member. -/
def PyOk : PyObj → Prop
  | .none => True
  | .int _ => True
  | .str s => s.all okC = true
  | .tup l => PyOkL l
  | .lst l => PyOkL l
  | .dict d => PyOkD d
  | .type items quals => items ≠ .nil ∧ PyObjs.len quals = PyObjs.len items ∧ PyOkL items ∧ PyOkL quals ∧
      (quals.any = false → quals = noQuals (PyObjs.len quals))
  | .comp _ members pack => PyOkL members ∧ PyOk pack ∧ (members = .nil → pack = .none)
def PyOkL : PyObjs → Prop
  | .nil => True
  | .cons v l => PyOk v ∧ PyOkL l
def PyOkD : PyDict → Prop
  | .nil => True
  | .cons k v d => k.all okC = true ∧ PyOk v ∧ PyOkD d
end

/-! ### Definitions that `repr` shows readably -/

/-- A text in the characters above. -/
def TextOk (s : Str) : Prop := s.all okC = true

/-- Qualifiers: no `None` (the entry of a calling convention), unless some entry is a nonempty tuple. -/
def QualsShow (q : List Qual) : Prop :=
  (∀ l, some l ∈ q → ∀ w ∈ l, TextOk w) ∧ (none ∈ q → ∃ l, some l ∈ q ∧ l ≠ [])

/-- A modifier: array lengths are integers. -/
def ModShow : CMod → Prop
  | .sym s => TextOk s
  | .arr d => ∀ x ∈ d, x ≠ none
  | .fn ps => ∀ p ∈ ps, (∀ n, p.1 = some n → TextOk n) ∧ ∀ d, p.2.2 = some d → TextOk d

/-- One level of a type. -/
def LevelShow (t : CType) : Prop := TextOk t.spec ∧ QualsShow t.quals ∧ ∀ m ∈ t.mods, ModShow m

/-- The types in a definition. -/
def typesIn : DefVal → List CType
  | .type t => [t]
  | .func (.plain t) => [t]
  | .func (.func r ps _) => r :: ps.map (·.2.1)
  | .var _ t => [t]
  | .compound ms _ => ms.map (·.type)
  | _ => []

/-- A value other than floats and those that the model does not know. -/
def ValShow : PVal → Prop
  | .none => True
  | .int _ => True
  | .list l => ∀ x ∈ l, x ≠ none
  | .str s => TextOk s
  | .flt _ => False
  | .other => False

/-- What a definition consists of besides its types. -/
def PartsShow : DefVal → Prop
  | .type _ => True
  | .func (.plain _) => True
  | .func (.func _ ps q) => QualsShow q ∧ ModShow (.fn ps) ∧ q.length = 2
  | .var v _ => ValShow v
  | .value v => ValShow v
  | .enum d => ∀ p ∈ d, TextOk p.1 ∧ ValShow p.2
  | .compound ms pack => (∀ m ∈ ms, (∀ n, m.name = some n → TextOk n) ∧ ValShow m.val) ∧ (ms = [] → pack = none)
  | .macro s => TextOk s
  | .fnmacro _ => False

/-- A definition that `repr` shows readably. -/
def DefShow (v : DefVal) : Prop := PartsShow v ∧ ∀ t ∈ typesIn v, ∀ u, Inside u t → LevelShow u

/-- Every type in a definition has one qualifier group per level (C03, C69). -/
def DefMatch (v : DefVal) : Prop := ∀ t ∈ typesIn v, ∀ u, Inside u t → QualsMatch u

/-- The kind of value recorded under a kind. -/
def OfKind : Kind → DefVal → Prop
  | .types, .type _ => True
  | .functions, .func _ => True
  | .variables, .var _ _ => True
  | .values, .value _ => True
  | .enums, .enum _ => True
  | .structs, .compound _ _ => True
  | .unions, .compound _ _ => True
  | .macros, .macro _ => True
  | .fnmacros, .fnmacro _ => True
  | _, _ => False

end Pyclib.Spec
