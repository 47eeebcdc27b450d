import Verif.Model.Lib
/-
Model of the ctypes backend (/repo/pyclibrary/backends/ctypes.py:173-386): `_get_type`, `_get_struct`,
`_get_pointer`, `_get_array`, and of `CLibrary._resolve_struct_alias` (c_library.py:378-393).

`_get_type` changes array modifiers in place (`seen += m`, line 227).  Python lists are therefore kept in
a heap: in this file the list of an array modifier holds one number, the identity of the Python list, and
`CtState.heap` maps identities to contents.  The definitions themselves do not change.

The classes of the `ctypes` module are modelled by their structure: `ctypes` returns the same class object
when it is asked twice for the same pointer, array or function type, so equality of structures is identity
of classes.  Structure and Union classes are created anew each time and are numbered.  Not modelled: sizes,
alignment, and the checks ctypes makes on them; aliases among the simple types (`c_long` may be the same
object as `c_longlong`).
-/
namespace Pyclib

/-- A ctypes class.  `void` is Python's `None`; `prim` is a simple type by its name in `ctypes`; `comp` is
a Structure or Union class by its number; `fn std ret args` is `WINFUNCTYPE(ret, *args)` if `std`,
`CFUNCTYPE(ret, *args)` otherwise. -/
inductive Cls where
  | void
  | prim (name : Str)
  | comp (id : Nat)
  | ptr (c : Cls)
  | arr (n : Int) (c : Cls)
  | fn (std : Bool) (ret : Cls) (args : List Cls)

/-- `POINTER(cls)`; `POINTER(None)` is `c_void_p`. -/
def mkPtr : Cls → Cls
  | .void => .prim c%"c_void_p"
  | c => .ptr c

/-- `cls * n`: `None` or an unknown length raises `TypeError`, a negative length `ValueError`. -/
def mkArr (c : Cls) (n : Option Int) : Except PyErr Cls :=
  match c, n with
  | .void, _ => .error .typeError
  | _, none => .error .typeError
  | c, some n => if n < 0 then .error .valueError else .ok (.arr n c)

/-- Python's `None` as a class. -/
def Cls.isVoid : Cls → Bool
  | .void => true
  | _ => false

/-- `None` among the arguments of `CFUNCTYPE` raises `TypeError`. -/
def mkFn (std : Bool) (ret : Cls) (args : List Cls) : Except PyErr Cls :=
  if args.any Cls.isVoid then .error .typeError else .ok (.fn std ret args)

/-- A Structure or Union class: kind, `_pack_`, `_anonymous_`, and `_fields_` once they are set (name,
class, third element if given). -/
structure CompCls where
  union : Bool
  name : Str
  pack : Option Nat
  anon : List Str
  fields : Option (List (Str × Cls × PVal))

/-- The mutable state: contents of the array lists, `_structs_`, the classes created so far. -/
structure CtState where
  heap : Int → List (Option Int)
  structs : Dict Str Nat
  classes : List CompCls

/-- The fixed part: configuration of the interpreter, definitions, and `_types_` (ctypes.py:402-450). -/
structure CtEnv where
  cfg : Cfg
  defs : KDefs DefVal
  types : Dict Str Str

/-- The typedefs. -/
def CtEnv.tm (e : CtEnv) : Dict Str CType := typeTable (e.defs .types)

/-- The table built by `init_clibrary` (ctypes.py:404-438) before extra types are added. -/
def ctypesTable : Dict Str Str :=
  [(c%"bool", c%"c_bool"), (c%"char", c%"c_char"), (c%"wchar", c%"c_wchar"), (c%"wchar_t", c%"c_wchar"),
   (c%"unsigned char", c%"c_ubyte"), (c%"short", c%"c_short"), (c%"short int", c%"c_short"),
   (c%"unsigned short", c%"c_ushort"), (c%"unsigned short int", c%"c_ushort"), (c%"int", c%"c_int"),
   (c%"unsigned", c%"c_uint"), (c%"unsigned int", c%"c_uint"), (c%"long", c%"c_long"), (c%"long int", c%"c_long"),
   (c%"unsigned long", c%"c_ulong"), (c%"unsigned long int", c%"c_ulong"), (c%"long unsigned int", c%"c_ulong"),
   (c%"long long", c%"c_longlong"), (c%"long long int", c%"c_longlong"),
   (c%"unsigned long long", c%"c_ulonglong"), (c%"unsigned long long int", c%"c_ulonglong"),
   (c%"float", c%"c_float"), (c%"double", c%"c_double"), (c%"long double", c%"c_longdouble"),
   (c%"uint8_t", c%"c_uint8"), (c%"int8_t", c%"c_int8"), (c%"uint16_t", c%"c_uint16"), (c%"int16_t", c%"c_int16"),
   (c%"uint32_t", c%"c_uint32"), (c%"int32_t", c%"c_int32"), (c%"uint64_t", c%"c_uint64"), (c%"int64_t", c%"c_int64"),
   (c%"size_t", c%"c_size_t"), (c%"ssize_t", c%"c_ssize_t")]

/-- `_ptr_types_` (ctypes.py:132-137). -/
def ptrTypes : Dict Str Str :=
  [(c%"char", c%"c_char_p"), (c%"wchar", c%"c_wchar_p"), (c%"wchar_t", c%"c_wchar_p"), (c%"void", c%"c_void_p")]

/-- The merge of consecutive array modifiers (ctypes.py:224-231) with `seen` the pending modifier: the
list of the first one is extended in place. -/
def mergeLoop : (Int → List (Option Int)) → CMod → List CMod → List CMod × (Int → List (Option Int))
  | h, seen, [] => ([seen], h)
  | h, seen, m :: ms =>
    match seen, m with
    | .arr [some i], .arr [some j] => mergeLoop (fun k => if k = i then h i ++ h j else h k) seen ms
    | _, _ => let (r, h) := mergeLoop h m ms; (seen :: r, h)

/-- The merge of consecutive array modifiers (ctypes.py:218-232). -/
def mergeMods (h : Int → List (Option Int)) : List CMod → List CMod × (Int → List (Option Int))
  | [] => ([], h)
  | m :: ms => mergeLoop h m ms

/-- One dimension (ctypes.py:245-251). -/
def applyDim (c : Cls) (d : Option Int) : Except PyErr Cls :=
  if d = some (-1) then .ok (mkPtr c) else mkArr c d

/-- The dimensions of an array modifier, last one first (ctypes.py:242-251). -/
def applyDims : Cls → List (Option Int) → Except PyErr Cls
  | c, [] => .ok c
  | c, d :: ds =>
    match applyDim c d with
    | .error e => .error e
    | .ok c => applyDims c ds

/-- The calling conventions recognised in modifier lists (ctypes.py:267). -/
def isConv (s : Str) : Bool := s == c%"__stdcall" || s == c%"__cdecl"

/-- The loop that looks for the pointer and the calling convention of a function (ctypes.py:261-270):
rounds left, pointer seen, `__stdcall` seen, remaining modifiers. -/
def findPtr : Nat → Bool → Bool → List CMod → Bool × Bool × List CMod
  | 0, p, s, ms => (p, s, ms)
  | _, p, s, [] => (p, s, [])
  | n + 1, p, s, .sym x :: ms =>
    if x = c%"*" then findPtr n true s ms
    else if isConv x then findPtr n p (x == c%"__stdcall") ms
    else (p, s, .sym x :: ms)
  | _, p, s, ms => (p, s, ms)

/-- `n` times `POINTER`. -/
def ptrTimes : Nat → Cls → Cls
  | 0, c => c
  | n + 1, c => ptrTimes n (mkPtr c)

/-- The argument types of a function pointer (ctypes.py:282); `rec` is `_get_type`. -/
def argClasses (rec : CtState → CType → Except PyErr Cls × CtState) :
    CtState → List Param → Except PyErr (List Cls) × CtState
  | st, [] => (.ok [], st)
  | st, p :: ps =>
    match rec st p.2.1 with
    | (.error e, st) => (.error e, st)
    | (.ok c, st) =>
      match argClasses rec st ps with
      | (.error e, st) => (.error e, st)
      | (.ok cs, st) => (.ok (c :: cs), st)

/-- The loop over the modifiers (ctypes.py:235-288).  The bound is the number of modifiers, which the loop
cannot exceed. -/
def applyMods (win32 : Bool) (rec : CtState → CType → Except PyErr Cls × CtState) :
    Nat → CtState → Cls → List CMod → Except PyErr Cls × CtState
  | _, st, c, [] => (.ok c, st)
  | 0, st, _, _ => (.error .recursionError, st)
  | n + 1, st, c, m :: ms =>
    match m with
    | .sym s =>
      match s with
      | [] => (.error .indexError, st)
      | x :: _ => applyMods win32 rec n st (if x = '*' ∨ x = '&' then ptrTimes s.length c else c) ms
    | .arr ids =>
      match ids with
      | [some i] =>
        match applyDims c (st.heap i).reverse with
        | .error e => (.error e, st)
        | .ok c => applyMods win32 rec n st c ms
      | _ => (.error .typeError, st)
    | .fn ps =>
      match ms with
      | [] => (.error .definitionError, st)
      | _ =>
        let (isPtr, std, rest) := findPtr 2 false false ms
        if !isPtr then (.error .definitionError, st)
        else if std && !win32 then (.error .nameError, st)
        else
          match argClasses rec st ps with
          | (.error e, st) => (.error e, st)
          | (.ok args, st) =>
            match mkFn std c args with
            | .error e => (.error e, st)
            | .ok c => applyMods win32 rec n st c rest

/-- `CLibrary._resolve_struct_alias` (c_library.py:378-393). -/
def resolveAlias (e : CtEnv) (union : Bool) (name : Str) : Except PyErr Str :=
  if dhas (e.defs (compKind union)) name then .ok name
  else if !dhas e.tm name then .error .keyError
  else
    match evalType e.cfg e.tm ⟨name, [], [some []]⟩ with
    | .error x => .error x
    | .ok t => if startsWith t.spec c%"struct " || startsWith t.spec c%"union " then tagOf t.spec else .error .keyError
where
  /-- `self._defs_["types"][typ][1]`. -/
  tagOf (s : Str) : Except PyErr Str :=
    match dget e.tm s with
    | none => .error .keyError
    | some u =>
      match u.mods with
      | .sym tag :: _ => .ok tag
      | [] => .error .indexError
      | _ => .error .typeError

/-- The search for a name `anon_member0`, `anon_member1`, ... that no earlier member has
(ctypes.py:324-333). -/
def anonMember (members : List Str) : Str :=
  anonLoop c%"anon_member" (fun n => decide (n ∈ members)) members.length 0

/-- The loop that names anonymous members (ctypes.py:320-334): names so far, anonymous ones so far. -/
def nameMembers : List Str → List Str → List Member → List Str × List Str
  | names, anon, [] => (names, anon)
  | names, anon, m :: ms =>
    match m.name with
    | some n => nameMembers (names ++ [n]) anon ms
    | none => nameMembers (names ++ [anonMember names]) (anon ++ [anonMember names]) ms

/-- The classes of the members (ctypes.py:340-345). -/
def memberClasses (rec : CtState → CType → Except PyErr Cls × CtState) :
    CtState → List (Str × Member) → Except PyErr (List (Str × Cls × PVal)) × CtState
  | st, [] => (.ok [], st)
  | st, (n, m) :: ms =>
    match rec st m.type with
    | (.error e, st) => (.error e, st)
    | (.ok c, st) =>
      match memberClasses rec st ms with
      | (.error e, st) => (.error e, st)
      | (.ok fs, st) => (.ok ((n, c, m.val) :: fs), st)

/-- The checks ctypes makes when `_fields_` is assigned, as far as modelled: every field has a ctypes type
(`TypeError`), anonymous fields are Structures or Unions (`AttributeError`). -/
def checkFields (anon : List Str) (fs : List (Str × Cls × PVal)) : Except PyErr Unit :=
  if fs.any (fun f => f.2.1.isVoid) then .error .typeError
  else if fs.any (fun f => decide (f.1 ∈ anon) && match f.2.1 with | .comp _ => false | _ => true) then
    .error .attributeError
  else .ok ()

/-- Replace the `n`-th element. -/
def listSet {α : Type} : List α → Nat → α → List α
  | [], _, _ => []
  | _ :: l, 0, x => x :: l
  | y :: l, n + 1, x => y :: listSet l n x

/-- `_get_struct` (ctypes.py:294-348); `rec` is `_get_type`. -/
def getStruct (e : CtEnv) (rec : CtState → CType → Except PyErr Cls × CtState) (st : CtState) (union : Bool)
    (name : Str) : Except PyErr Cls × CtState :=
  match dget st.structs name with
  | some id => (.ok (.comp id), st)
  | none =>
    match resolveAlias e union name with
    | .error x => (.error x, st)
    | .ok name =>
      match dget (e.defs (compKind union)) name with
      | some (.compound ms pack) =>
        let id := st.classes.length
        let (names, anon) := nameMembers [] [] ms
        let st := { st with
          structs := dset st.structs name id
          classes := st.classes ++ [⟨union, name, pack, anon, none⟩] }
        match memberClasses rec st (names.zip ms) with
        | (.error x, st) => (.error x, st)
        | (.ok fs, st) =>
          match checkFields anon fs with
          | .error x => (.error x, st)
          | .ok () =>
            (.ok (.comp id), { st with classes := listSet st.classes id ⟨union, name, pack, anon, some fs⟩ })
      | some _ => (.error .typeError, st)
      | none => (.error .keyError, st)

/-- The dedicated class of a pointer type (ctypes.py:188-195), with the remaining modifiers. -/
def specialCls (t : CType) : Option (Str × List CMod) :=
  match t.mods with
  | .sym s :: ms => if s = c%"*" then (dget ptrTypes t.spec).map (fun p => (p, ms)) else none
  | _ => none

/-- The base class of a resolved type (ctypes.py:185-213): class and remaining modifiers. -/
def baseCls (e : CtEnv) (rec : CtState → CType → Except PyErr Cls × CtState) (pointers : Bool) (st : CtState)
    (t : CType) : Except PyErr (Cls × List CMod) × CtState :=
  match (if pointers then specialCls t else none) with
  | some (p, ms) => (.ok (.prim p, ms), st)
  | none =>
    match dget e.types t.spec with
    | some p => (.ok (.prim p, t.mods), st)
    | none =>
      if startsWith t.spec c%"struct " || startsWith t.spec c%"union " then
        match resolveAlias.tagOf e t.spec with
        | .error x => (.error x, st)
        | .ok tag =>
          match getStruct e rec st (!startsWith t.spec c%"struct ") tag with
          | (.error x, st) => (.error x, st)
          | (.ok c, st) => (.ok (c, t.mods), st)
      else if startsWith t.spec c%"enum " then (.ok (.prim c%"c_int", t.mods), st)
      else if t.spec = c%"void" then (.ok (.void, t.mods), st)
      else (.error .keyError, st)

/-- `_get_type` (ctypes.py:173-292) for `pointers=True`, with a bound on the depth of the recursion;
`Props.Ctypes` proves that the bound is not reached unless a typedef is a parameter type of itself. -/
def getType (e : CtEnv) : Nat → CtState → CType → Except PyErr Cls × CtState
  | 0, st, _ => (.error .recursionError, st)
  | n + 1, st, t =>
    match evalType e.cfg e.tm t with
    | .error x => (.error x, st)
    | .ok r =>
      match baseCls e (getType e n) true st r with
      | (.error x, st) => (.error x, st)
      | (.ok (c, mods), st) =>
        let (mods, h) := mergeMods st.heap mods
        applyMods e.cfg.win32 (getType e n) mods.length { st with heap := h } c mods

/-- `_get_type` for `pointers=False` (ctypes.py:215-216). -/
def getBase (e : CtEnv) (n : Nat) (st : CtState) (t : CType) : Except PyErr Cls × CtState :=
  match evalType e.cfg e.tm t with
  | .error x => (.error x, st)
  | .ok r =>
    match baseCls e (getType e n) false st r with
    | (.error x, st) => (.error x, st)
    | (.ok (c, _), st) => (.ok c, st)

/-- `_get_pointer` (ctypes.py:350-362): the class of the object returned, a pointer to a new object.  The
assertion, or the hashing of a list or of parameters inside it, fails unless the type is a one- or
two-level pointer. -/
def getPointer (e : CtEnv) (n : Nat) (st : CtState) (argType sig : CType) : Except PyErr Cls × CtState :=
  if argType.mods.length = 0 ∨ argType.mods.length > 2 then (.error .assertionError, st)
  else if argType.mods.any (fun m => match m with | .arr _ => true | .fn (_ :: _) => true | _ => false) then
    (.error .typeError, st)
  else if argType.mods.all (fun m => match m with | .sym s => decide (s = c%"*") | _ => false) then
    match getBase e n st sig with
    | (.error x, st) => (.error x, st)
    | (.ok c, st) =>
      match special c with
      | some p => (.ok (mkPtr (ptrTimes (argType.mods.length - 2) (.prim p))), st)
      | none => (.ok (mkPtr (ptrTimes (argType.mods.length - 1) c)), st)
  else (.error .assertionError, st)
where
  /-- `special_pointer_types` (ctypes.py:355). -/
  special : Cls → Option Str
    | .void => some c%"c_void_p"
    | .prim p => if p = c%"c_char" then some c%"c_char_p" else if p = c%"c_wchar" then some c%"c_wchar_p" else none
    | _ => none

/-- The class of the array built by `_get_array` (ctypes.py:371-386) from an element class: dimensions
last one first. -/
def arrayCls (c : Cls) (size : List Int) : Except PyErr Cls :=
  size.reverse.foldl (fun r s => match r with
    | .error e => .error e
    | .ok c => mkArr c (some s)) (.ok c)

end Pyclib
