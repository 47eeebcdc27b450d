import Verif.Model.Decl
/-
Model of `CLibrary` (/repo/pyclibrary/c_library.py:88-306): lookup of names, object caches, and of the
metaclass that keeps one object per library path (c_library.py:31-85).

The backend (functions `_get_function`, `_get_type`, `_get_struct`) is a parameter with its own state;
`Model.Ctypes` models the ctypes backend.
-/
namespace Pyclib

/-- The kinds that can be looked up, in the order of `__getattr__` (c_library.py:229-237). -/
def lookKinds : List Kind := [.values, .functions, .types, .structs, .unions, .enums]

/-- What a lookup can return: a value from the headers, the dictionary of an enum, an object made by
the backend. -/
inductive LObj (O : Type) where
  | val (v : PVal)
  | enum (d : Dict Str PVal)
  | obj (o : O)

/-- `obj is None` (c_library.py:245); `nl` tells which objects of the backend are `None`. -/
def LObj.isNone {O : Type} (nl : O → Bool) : LObj O → Bool
  | .val .none => true
  | .obj o => nl o
  | _ => false

/-- The fixed parts of a `CLibrary`: definitions, prefixes, interpreter configuration and backend.  `O`
are the backend's objects (with their identity), `B` its state; `isNull` tells which objects are `None` (the
ctypes class of `void`). -/
structure Lib (O B : Type) where
  defs : KDefs DefVal
  prefixes : List Str
  cfg : Cfg
  getFunction : Str → B → Except PyErr O × B
  getType : CType → B → Except PyErr O × B
  getStruct : Bool → Str → B → Except PyErr O × B
  isNull : O → Bool

/-- The mutable parts: `_objs_`, `_all_objs_` (c_library.py:202-205) and the backend state. -/
structure LState (O B : Type) where
  objs : Kind → Dict Str (LObj O)
  all : Dict Str (LObj O)
  b : B

/-- The state after `__init__` (c_library.py:202-207). -/
def LState.init {O B : Type} (b : B) : LState O B := ⟨fun _ => [], [], b⟩

variable {O B : Type}

/-- `_all_names_` (c_library.py:255-260). -/
def Lib.names (l : Lib O B) (name : Str) : List Str := name :: l.prefixes.map (· ++ name)

/-- The typedefs among the definitions. -/
def typeTable (d : Dict Str DefVal) : Dict Str CType :=
  d.filterMap fun p => match p.2 with
    | .type t => some (p.1, t)
    | _ => none

/-- The enum for name `n` (c_library.py:289-300), resolving typedef aliases; a second element of the
type entry that is not a string raises `KeyError` when looked up. -/
def Lib.getEnum (l : Lib O B) (n : Str) : Except PyErr (LObj O) :=
  let fetch (n : Str) : Except PyErr (LObj O) :=
    match dget (l.defs .enums) n with
    | some (.enum d) => .ok (.enum d)
    | some _ => .error .typeError
    | none => .error .keyError
  if dhas (l.defs .enums) n then fetch n
  else if dhas (l.defs .types) n then
    match evalType l.cfg (typeTable (l.defs .types)) ⟨n, [], [some []]⟩ with
    | .error e => .error e
    | .ok t =>
      if startsWith t.spec c%"enum " then
        match dget (typeTable (l.defs .types)) t.spec with
        | none => .error .keyError
        | some u =>
          match u.mods with
          | .sym tag :: _ => fetch tag
          | [] => .error .indexError
          | _ => .error .keyError
      else .error .keyError
  else .error .keyError

/-- The body of the second loop of `_make_obj_` for the chosen name (c_library.py:278-304). -/
def Lib.build (l : Lib O B) (typ : Kind) (n : Str) (b : B) : Except PyErr (LObj O) × B :=
  let wrap : Except PyErr O × B → Except PyErr (LObj O) × B
    | (.ok o, b) => (.ok (.obj o), b)
    | (.error e, b) => (.error e, b)
  match typ with
  | .values =>
    match dget (l.defs .values) n with
    | some (.value v) => (.ok (.val v), b)
    | some _ => (.error .typeError, b)
    | none => (.error .keyError, b)
  | .functions => wrap (l.getFunction n b)
  | .types =>
    match dget (l.defs .types) n with
    | some (.type t) => wrap (l.getType t b)
    | some _ => (.error .typeError, b)
    | none => (.error .keyError, b)
  | .structs => wrap (l.getStruct false n b)
  | .unions => wrap (l.getStruct true n b)
  | .enums => (l.getEnum n, b)
  | _ => (.error .keyError, b)

/-- The test of the second loop of `_make_obj_` (c_library.py:272-276). -/
def Lib.candidate (l : Lib O B) (typ : Kind) (n : Str) : Bool :=
  dhas (l.defs typ) n ||
    (decide (typ = .structs ∨ typ = .unions ∨ typ = .enums) && dhas (l.defs .types) n)

/-- `_make_obj_` (c_library.py:262-304).  A hit in the first loop evaluates `self.objs`, an attribute
that does not exist, so `__getattr__` raises `NameError`.  Simplification: the headers do not define a
name `objs` (with or without prefix). -/
def Lib.makeObj (l : Lib O B) (st : LState O B) (typ : Kind) (name : Str) : Except PyErr (LObj O) × B :=
  if (l.names name).any (fun n => dhas (st.objs typ) n) then (.error .nameError, st.b)
  else
    match (l.names name).find? (l.candidate typ) with
    | none => (.error .nameError, st.b)
    | some n => l.build typ n st.b

/-- `__call__` (c_library.py:209-217): `lib(kind, name)`. -/
def Lib.call (l : Lib O B) (st : LState O B) (typ : Kind) (name : Str) : Except PyErr (LObj O) × LState O B :=
  if typ ∉ lookKinds then (.error .keyError, st)
  else
    match dget (st.objs typ) name with
    | some o => (.ok o, st)
    | none =>
      match l.makeObj st typ name with
      | (.error e, b) => (.error e, { st with b := b })
      | (.ok o, b) =>
        (.ok o, { st with objs := (fun k => if k = typ then dset (st.objs typ) name o else st.objs k), b := b })

/-- The loop of `__getattr__` over the kinds (c_library.py:229-246). -/
def Lib.attrLoop (l : Lib O B) (name : Str) : LState O B → List Kind → Except PyErr (LObj O) × LState O B
  | st, [] => (.error .nameError, st)
  | st, k :: ks =>
    match (l.names name).find? (fun n => dhas (l.defs k) n) with
    | none => l.attrLoop name st ks
    | some n =>
      match l.call st k n with
      | (.error e, st) => (.error e, st)
      | (.ok o, st) => if o.isNone l.isNull then l.attrLoop name st ks else (.ok o, st)

/-- `__getattr__` (c_library.py:219-247): `lib.name`, for a name that is not an attribute of the object
itself. -/
def Lib.getattr (l : Lib O B) (st : LState O B) (name : Str) : Except PyErr (LObj O) × LState O B :=
  match dget st.all name with
  | some o => (.ok o, st)
  | none =>
    match l.attrLoop name st lookKinds with
    | (.error e, st) => (.error e, st)
    | (.ok o, st) => (.ok o, { st with all := dset st.all name o })

/-- A lookup by the user. -/
inductive Look where
  | call (typ : Kind) (name : Str)
  | attr (name : Str)

/-- One lookup. -/
def Lib.look (l : Lib O B) (st : LState O B) : Look → Except PyErr (LObj O) × LState O B
  | .call k n => l.call st k n
  | .attr n => l.getattr st n

/-- The state after a sequence of lookups, failing or not. -/
def Lib.runLooks (l : Lib O B) (st : LState O B) : List Look → LState O B
  | [] => st
  | k :: ks => l.runLooks (l.look st k).2 ks

/-- The outcomes of a sequence of lookups, and the state after it. -/
def Lib.session (l : Lib O B) (st : LState O B) : List Look → List (Except PyErr (LObj O)) × LState O B
  | [] => ([], st)
  | q :: qs =>
    let r := l.look st q
    let rs := l.session r.2 qs
    (r.1 :: rs.1, rs.2)

/-! ### The metaclass -/

/-- `CLibraryMeta.libs` (c_library.py:37-38), a `WeakValueDictionary`, and the `CLibrary` objects that are
still referenced, each with its path (ghost state); `next` numbers the objects. -/
structure Registry where
  libs : Dict Str Nat
  alive : List (Nat × Str)
  next : Nat

/-- Nothing opened yet. -/
def Registry.empty : Registry := ⟨[], [], 0⟩

/-- `CLibraryMeta.__call__` (c_library.py:54-85) after the path was determined; `create` tells whether
the construction of a new object succeeds. -/
def openLib (r : Registry) (path : Str) (create : Except PyErr Unit) : Except PyErr Nat × Registry :=
  match dget r.libs path with
  | some i => (.ok i, r)
  | none =>
    match create with
    | .error e => (.error e, r)
    | .ok () => (.ok r.next, ⟨dset r.libs path r.next, (r.next, path) :: r.alive, r.next + 1⟩)

/-- The last reference to object `i` goes away: a weak dictionary drops the entries whose value died. -/
def dropLib (r : Registry) (i : Nat) : Registry :=
  ⟨r.libs.filter (fun p => p.2 ≠ i), r.alive.filter (fun p => p.1 ≠ i), r.next⟩

/-- What happens to the registry. -/
inductive RegOp where
  | openL (path : Str) (create : Except PyErr Unit)
  | drop (i : Nat)

/-- One step. -/
def regStep (r : Registry) : RegOp → Registry
  | .openL p c => (openLib r p c).2
  | .drop i => dropLib r i

/-- Any sequence of opens and drops. -/
def regRun (r : Registry) : List RegOp → Registry
  | [] => r
  | o :: os => regRun (regStep r o) os

/-- How the user names the library: a name without separator, a path, or an already loaded library
object. -/
inductive LibArg where
  | name (s : Str)
  | path (s : Str)
  | loaded (backend : Option Str) (path : Except PyErr Str)

/-- The outside world as seen by the metaclass: `find_library`, `realpath`, `isfile`, the
word sizes of a library file (`LibraryPath.arch`, utils.py:168-176, empty if unknown), the registered
backends, the word size of the interpreter. -/
structure World where
  findLibrary : Str → Except PyErr Str
  realpath : Str → Str
  isFile : Str → Bool
  arch : Str → List Nat
  backends : List Str
  pyBits : Nat

/-- The first part of `CLibraryMeta.__call__` (c_library.py:54-77): the path of the library, after the
check of its word size.  `backend` is the keyword argument (default `ctypes`). -/
def libPath (w : World) (backend : Str) : LibArg → Except PyErr Str
  | .loaded b p =>
    match b with
    | none => .error .keyError
    | some b => if b ∈ w.backends then p else .error .keyError
  | .name s =>
    match w.findLibrary s with
    | .error e => .error e
    | .ok p => check p
  | .path s => if w.isFile (w.realpath s) then check (w.realpath s) else .error .assertionError
where
  /-- Backend and word size (c_library.py:63-69). -/
  check (p : Str) : Except PyErr Str :=
    if backend ∉ w.backends then .error .keyError
    else if w.arch p ≠ [] ∧ w.pyBits ∉ w.arch p then .error .osError
    else .ok p

/-- `CLibraryMeta.__call__` (c_library.py:54-85); `create path` constructs the object, linking the
library. -/
def metaCall (w : World) (backend : Str) (r : Registry) (a : LibArg) (create : Str → Except PyErr Unit) :
    Except PyErr Nat × Registry :=
  match libPath w backend a with
  | .error e => (.error e, r)
  | .ok p => openLib r p (create p)

end Pyclib
