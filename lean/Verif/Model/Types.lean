import Verif.Text
/-
Model of class `Type` (/repo/pyclibrary/c_parser.py:62-257) and of the module level tables it uses
(c_parser.py:1809-1842).
-/
namespace Pyclib

/-- One entry of `Type.type_quals`: a tuple of qualifier words, or `None` (the entry that
`process_declarator` stores for a calling convention, c_parser.py:1398). -/
abbrev Qual := Option (List Str)

/-- A `Type` object with string `type_spec` (c_parser.py:62-118): `spec` is `self[0]`, `mods` is
`self[1:]`, `quals` is `self.type_quals`.  `M` is the type of modifiers (see `CMod`). -/
structure TypeF (M : Type) where
  spec : Str
  mods : List M
  quals : List Qual

/-- A declarator entry of a `Type` (c_parser.py:78-95): a string (`*`, `&`, a calling convention,
or a tag name), a list (array lengths; `none` stands for a length that did not evaluate to an int),
or a tuple of parameters `(name or None, type, default or None)`. -/
inductive CMod where
  | sym (s : Str)
  | arr (dims : List (Option Int))
  | fn (params : List (Option Str × TypeF CMod × Option Str))

/-- `Type` with a string specifier. -/
abbrev CType := TypeF CMod

/-- A parameter tuple. -/
abbrev Param := Option Str × CType × Option Str

/-- A `Type` object after `add_compatibility_hack`: either an ordinary type, or
`Type(Type(...), params)` whose first element is itself a `Type`. -/
inductive HType where
  | plain (t : CType)
  | func (ret : CType) (params : List Param) (quals : List Qual)

/-- Interpreter / platform / `init` configuration visible to the parser
(c_parser.py:1822, 1838-1842, 1855). -/
structure Cfg where
  py312 : Bool
  win32 : Bool
  extraTypes : List Str

/-- `c99_int_types` (c_parser.py:1824-1833). -/
def c99IntTypes : List Str :=
  [c%"int8_t", c%"uint8_t", c%"int16_t", c%"uint16_t", c%"int32_t", c%"uint32_t", c%"int64_t", c%"uint64_t"]

/-- `num_types` (c_parser.py:1834-1842). -/
def numTypes (cfg : Cfg) : List Str :=
  [c%"int", c%"float", c%"double"] ++ c99IntTypes ++ [c%"size_t", c%"ssize_t"] ++
  (if cfg.py312 then [c%"time_t"] else []) ++ (if cfg.win32 then [c%"__int64"] else [])

/-- `nonnum_types` (c_parser.py:1836). -/
def nonnumTypes : List Str := [c%"char", c%"wchar", c%"wchar_t", c%"bool", c%"void"]

/-- `size_modifiers` (c_parser.py:1809). -/
def sizeModifiers : List Str := [c%"short", c%"long"]

/-- `sign_modifiers` (c_parser.py:1810). -/
def signModifiers : List Str := [c%"signed", c%"unsigned"]

/-- The list `names` of `Type.is_fund_type` (c_parser.py:159-161). -/
def fundNames (cfg : Cfg) : List Str :=
  numTypes cfg ++ nonnumTypes ++ sizeModifiers ++ signModifiers ++ cfg.extraTypes

/-- `Type.is_fund_type` (c_parser.py:146-165), as a function of `self[0]`. -/
def isFund (cfg : Cfg) (spec : Str) : Bool :=
  if startsWith spec c%"struct " || startsWith spec c%"union " || startsWith spec c%"enum " then true
  else (splitWs spec).all (fun w => decide (w ∈ fundNames cfg))

/-- `re.sub(r"\bsigned\b", "", s)` (c_parser.py:187); `prev` tells whether the character before the
current position is a word character, `skip` counts characters of a match still to be dropped. -/
def removeSigned : Bool → Nat → Str → Str
  | _, _, [] => []
  | _, n + 1, c :: s => removeSigned (isWordC c) n s
  | prev, 0, c :: s =>
    if !prev && startsWith (c :: s) c%"signed" &&
        !((c :: s).drop 6).head?.any isWordC then
      removeSigned (isWordC c) 5 s
    else c :: removeSigned (isWordC c) 0 s

/-- `re.sub(r"\bsigned\b", "", self.type_spec).strip()` (c_parser.py:187). -/
def dropSigned (s : Str) : Str := strip (removeSigned false 0 s)

/-- `Type.__init__` (c_parser.py:117-125): `type_quals` defaults to one empty tuple per level (an
empty `type_quals` counts as absent), and a wrong number of entries raises `ValueError`. -/
def mkType (spec : Str) (mods : List CMod) (quals : Option (List Qual)) : Except PyErr CType :=
  let dflt := List.replicate (1 + mods.length) (some [])
  let q := match quals with
    | none => dflt
    | some [] => dflt
    | some q => q
  if q.length ≠ 1 + mods.length then .error .valueError else .ok ⟨spec, mods, q⟩

/-- Addition of two qualifier entries; adding `None` raises `TypeError`. -/
def qualAdd : Qual → Qual → Except PyErr Qual
  | some a, some b => .ok (some (a ++ b))
  | _, _ => .error .typeError

/-- `(*pt.type_quals[:-1], pt.type_quals[-1] + self.type_quals[0], *self.type_quals[1:])`
(c_parser.py:206-212). -/
def joinQuals (pq sq : List Qual) : Except PyErr (List Qual) :=
  match pq.getLast?, sq with
  | some a, b :: rest => do
    let ab ← qualAdd a b
    .ok (pq.dropLast ++ ab :: rest)
  | _, _ => .error .indexError

/-- `Type.eval` (c_parser.py:167-215) with a bound on the recursion depth.  Running out of fuel
is reported as `RecursionError`; `Verif.Props.Types` proves that this never happens with the fuel
given by `evalType`. -/
def evalAux (cfg : Cfg) (tm : Dict Str CType) : Nat → CType → List Str → Except PyErr CType
  | 0, _, _ => .error .recursionError
  | n + 1, t, used =>
    if isFund cfg t.spec then mkType (dropSigned t.spec) t.mods (some t.quals)
    else if t.spec ∈ used then .error .definitionError
    else match dget tm t.spec with
      | none => .error .definitionError
      | some pt => do
        let q ← joinQuals pt.quals t.quals
        let t' ← mkType pt.spec (pt.mods ++ t.mods) (some q)
        evalAux cfg tm n t' (used ++ [t.spec])

/-- `Type.eval(type_map)` / `CParser.eval_type` (c_parser.py:167, 1705-1714). -/
def evalType (cfg : Cfg) (tm : Dict Str CType) (t : CType) : Except PyErr CType :=
  evalAux cfg tm (tm.length + 1) t []

/-- `Type.add_compatibility_hack` (c_parser.py:217-236); `type(self[-1]) is tuple` tests the last
element of the whole tuple, which is a modifier whenever there is one. -/
def addHack (t : CType) : Except PyErr HType :=
  match t.mods.getLast? with
  | some (.fn ps) => do
    let r ← mkType t.spec t.mods.dropLast (some t.quals.dropLast)
    match t.quals.getLast? with
    | some q => .ok (.func r ps [some [], q])
    | none => .error .indexError
  | _ => .ok (.plain t)

/-- `Type.remove_compatibility_hack` (c_parser.py:238-246): the new `Type` is built without
`type_quals`, so the qualifiers are reset. -/
def removeHack : HType → Except PyErr CType
  | .plain t => .ok t
  | .func r ps _ => mkType r.spec (r.mods ++ [.fn ps]) none

end Pyclib
