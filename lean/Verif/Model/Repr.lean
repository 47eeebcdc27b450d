import Verif.Model.Decl
/-!
Model of `Type.__repr__` (/repo/pyclibrary/c_parser.py:248-254) and `Compound.__repr__`
(c_parser.py:272-280), together with `repr` of the built-in values that recorded definitions consist of
(CPython: `None`, `int`, `str`, `tuple`, `list`, `dict`).  Restriction: text is ASCII; for control
characters other than tab, line feed and carriage return CPython writes `\xhh`, which is not modelled
(`Spec/Repr` `okC`).
-/
namespace Pyclib

mutual
/-- The Python objects that recorded definitions consist of; `type` is a `Type` object (its items and
`type_quals`, c_parser.py:62-125), `comp` a `Struct` or `Union` (c_parser.py:260-315). -/
inductive PyObj where
  | none
  | int (i : Int)
  | str (s : Str)
  | tup (l : PyObjs)
  | lst (l : PyObjs)
  | dict (d : PyDict)
  | type (items quals : PyObjs)
  | comp (union : Bool) (members : PyObjs) (pack : PyObj)
/-- Sequences of objects. -/
inductive PyObjs where
  | nil
  | cons (v : PyObj) (l : PyObjs)
/-- Dictionaries with string keys, in insertion order. -/
inductive PyDict where
  | nil
  | cons (k : Str) (v : PyObj) (d : PyDict)
end

/-- `bool(v)`; a `Type` is a nonempty tuple, a `Struct` a dictionary with two keys. -/
def PyObj.truthy : PyObj → Bool
  | .none => false
  | .int i => i ≠ 0
  | .str s => s ≠ []
  | .tup .nil | .lst .nil | .dict .nil | .type .nil _ => false
  | _ => true

/-- `v is None`. -/
def PyObj.isNone : PyObj → Bool
  | .none => true
  | _ => false

/-- `any(l)`. -/
def PyObjs.any : PyObjs → Bool
  | .nil => false
  | .cons v l => v.truthy || l.any

/-- One character of `repr` of a string with quotation mark `q`. -/
def escC (q c : Char) : Str :=
  if c = q ∨ c = '\\' then ['\\', c]
  else if c = '\n' then c%"\\n"
  else if c = '\r' then c%"\\r"
  else if c = '\t' then c%"\\t"
  else [c]

/-- The quotation mark chosen by `repr` of a string. -/
def quoteOf (s : Str) : Char := if '\'' ∈ s ∧ ¬ '"' ∈ s then '"' else '\''

/-- `repr` of a string. -/
def reprStr (s : Str) : Str := quoteOf s :: (s.flatMap (escC (quoteOf s)) ++ [quoteOf s])

/-- `repr` of an integer. -/
def reprInt (i : Int) : Str := if i < 0 then '-' :: natDigits i.natAbs else natDigits i.natAbs

/-- The comma of a tuple with one item. -/
def oneComma : PyObjs → Str
  | .cons _ .nil => c%","
  | _ => []

mutual
/-- `repr(v)`. -/
def PyObj.repr : PyObj → Str
  | .none => c%"None"
  | .int i => reprInt i
  | .str s => reprStr s
  | .tup l => c%"(" ++ l.repr ++ oneComma l ++ c%")"
  | .lst l => c%"[" ++ l.repr ++ c%"]"
  | .dict .nil => c%"{}"
  | .dict (.cons k v d) => c%"{" ++ reprStr k ++ c%": " ++ v.repr ++ d.reprTail ++ c%"}"
  | .type items quals =>                                       -- c_parser.py:248-254
    c%"Type(" ++ items.repr ++
      (if quals.any then c%", type_quals=" ++ (c%"(" ++ quals.repr ++ oneComma quals ++ c%")") else []) ++ c%")"
  | .comp u members pack =>                                    -- c_parser.py:272-280
    (if u then c%"Union" else c%"Struct") ++ c%"(" ++ members.repr ++
      (if pack.isNone then [] else c%", pack=" ++ pack.repr) ++ c%")"
/-- `", ".join(map(repr, l))`. -/
def PyObjs.repr : PyObjs → Str
  | .nil => []
  | .cons v l => v.repr ++ l.reprTail
/-- The items after the first one. -/
def PyObjs.reprTail : PyObjs → Str
  | .nil => []
  | .cons v l => c%", " ++ v.repr ++ l.reprTail
/-- The entries of a dictionary after the first one. -/
def PyDict.reprTail : PyDict → Str
  | .nil => []
  | .cons k v d => c%", " ++ reprStr k ++ c%": " ++ v.repr ++ d.reprTail
end

/-- A string, or `None`. -/
def optPy : Option Str → PyObj
  | some s => .str s
  | Option.none => .none

/-- A list of strings as a tuple. -/
def strsPy : List Str → PyObjs
  | [] => .nil
  | s :: l => .cons (.str s) (strsPy l)

/-- One entry of `type_quals`. -/
def qualPy : Qual → PyObj
  | some q => .tup (strsPy q)
  | Option.none => .none

/-- `type_quals`. -/
def qualsPy : List Qual → PyObjs
  | [] => .nil
  | q :: l => .cons (qualPy q) (qualsPy l)

/-- Array lengths; `none` (a length that did not evaluate to an integer) is written `None`, which is right
only if it did not evaluate at all (`Spec/Repr` `KnownMods` excludes these). -/
def dimsPy : List (Option Int) → PyObjs
  | [] => .nil
  | some i :: l => .cons (.int i) (dimsPy l)
  | Option.none :: l => .cons .none (dimsPy l)

mutual
/-- The object behind a modifier (`CMod`). -/
def modPy : CMod → PyObj
  | .sym s => .str s
  | .arr d => .lst (dimsPy d)
  | .fn ps => .tup (paramsPy ps)
/-- The objects behind modifiers. -/
def modsPy : List CMod → PyObjs
  | [] => .nil
  | m :: ms => .cons (modPy m) (modsPy ms)
/-- The objects behind parameters. -/
def paramsPy : List Param → PyObjs
  | [] => .nil
  | (n, ⟨s, ms, q⟩, d) :: ps =>
    .cons (.tup (.cons (optPy n) (.cons (.type (.cons (.str s) (modsPy ms)) (qualsPy q)) (.cons (optPy d) .nil))))
      (paramsPy ps)
end

/-- The object behind a `Type`. -/
def typePy (t : CType) : PyObj := .type (.cons (.str t.spec) (modsPy t.mods)) (qualsPy t.quals)

/-- The object behind a recorded function type (c_parser.py:214-236). -/
def htypePy : HType → PyObj
  | .plain t => typePy t
  | .func ret ps q => .type (.cons (typePy ret) (.cons (.tup (paramsPy ps)) .nil)) (qualsPy q)

/-- The object behind a value, if the model shows it: not for floats and values that the model does not know. -/
def valPy : PVal → Option PyObj
  | .none => some .none
  | .int i => some (.int i)
  | .list l => some (.lst (dimsPy l))
  | .str s => some (.str s)
  | .flt _ => Option.none
  | .other => Option.none

/-- The entries of an enum. -/
def enumPy : Dict Str PVal → Option PyDict
  | [] => some .nil
  | (n, v) :: l =>
    match valPy v, enumPy l with
    | some v, some l => some (.cons n v l)
    | _, _ => Option.none

/-- The bit width at the end of a member tuple. -/
def bitPy : Option Int → PyObjs
  | some b => .cons (.int b) .nil
  | Option.none => .nil

/-- The packing of a struct. -/
def packPy : Option Nat → PyObj
  | some p => .int p
  | Option.none => .none

/-- The member tuple `(name, type, value[, bit width])` (c_parser.py:1573-1586). -/
def memberPy (m : Member) : Option PyObj :=
  (valPy m.val).map fun v =>
    .tup (.cons (optPy m.name) (.cons (typePy m.type) (.cons v (bitPy m.bit))))

/-- The member tuples. -/
def membersPy : List Member → Option PyObjs
  | [] => some .nil
  | m :: ms =>
    match memberPy m, membersPy ms with
    | some v, some l => some (.cons v l)
    | _, _ => Option.none

/-- The object recorded for a definition of a kind; `none` for values that the model does not know and
for function macros (closures). -/
def defPy (k : Kind) : DefVal → Option PyObj
  | .type t => some (typePy t)
  | .func h => some (htypePy h)
  | .var v t => (valPy v).map fun v => .tup (.cons v (.cons (typePy t) .nil))
  | .value v => valPy v
  | .enum d => (enumPy d).map .dict
  | .compound ms pack => (membersPy ms).map fun l =>
      .comp (k = .unions) l (packPy pack)
  | .macro s => some (.str s)
  | .fnmacro _ => Option.none

end Pyclib
