import Verif.Text
/-
Model of the definition tables of `CParser` (/repo/pyclibrary/c_parser.py):
`defs`, `file_defs`, `current_file`, `add_def`, `rem_def`, `import_dict`, `find`.
The recorded values are an arbitrary type `V`.
-/
namespace Pyclib

/-- `CParser.data_list` (c_parser.py:497-507).  A kind outside this list (only possible through
constructor keyword arguments) raises `KeyError` in `add_def` and is not modelled. -/
inductive Kind where
  | types | variables | fnmacros | macros | structs | unions | enums | functions | values
  deriving DecidableEq, Repr

/-- `self.data_list`, in order (c_parser.py:497-507). -/
def dataList : List Kind :=
  [.types, .variables, .fnmacros, .macros, .structs, .unions, .enums, .functions, .values]

/-- One `{kind: {name: value}}` dictionary; all nine kinds are always present
(c_parser.py:521-522, 1679-1680), so it is a function on kinds. -/
abbrev KDefs (V : Type) := Kind → Dict Str V

/-- The part of a `CParser` that `add_def`/`rem_def` read and write.  A `file_defs` key is a base name
or `None`. -/
structure Store (V : Type) where
  defs : KDefs V
  fileDefs : Dict (Option Str) (KDefs V)
  cur : Option Str

variable {V : Type}

/-- The tables right after lines 487-527 of `CParser.__init__`. -/
def Store.empty : Store V := ⟨fun _ => [], [], none⟩

/-- `d[k] = x` on a total table of kinds. -/
def kset (d : KDefs V) (k : Kind) (x : Dict Str V) : KDefs V := fun k' => if k' = k then x else d k'

/-- `base_name` of `add_def` / `rem_def` (c_parser.py:1673-1676, 1688-1691). -/
def baseOf (cur : Option Str) : Option Str := cur.map basename

/-- The entry of `file_defs` for a base name, created empty when missing (c_parser.py:1677-1680). -/
def fileEntry (fd : Dict (Option Str) (KDefs V)) (b : Option Str) : KDefs V :=
  (dget fd b).getD (fun _ => [])

/-- `CParser.add_def` (c_parser.py:1667-1681). -/
def addDef (s : Store V) (k : Kind) (n : Str) (v : V) : Store V :=
  let b := baseOf s.cur
  let e := fileEntry s.fileDefs b
  { s with
    defs := kset s.defs k (dset (s.defs k) n v)
    fileDefs := dset s.fileDefs b (kset e k (dset (e k) n v)) }

/-- `CParser.rem_def` (c_parser.py:1683-1693).  The two `del` statements run one after the other, so
the state may be changed although `KeyError` is raised. -/
def remDef (s : Store V) (k : Kind) (n : Str) : Store V × Option PyErr :=
  if dhas (s.defs k) n then
    let s1 : Store V := { s with defs := kset s.defs k (ddel (s.defs k) n) }
    let b := baseOf s.cur
    match dget s.fileDefs b with
    | none => (s1, some .keyError)
    | some e =>
      if dhas (e k) n then
        ({ s1 with fileDefs := dset s.fileDefs b (kset e k (ddel (e k) n)) }, none)
      else (s1, some .keyError)
  else (s, some .keyError)

/-- Assignment to `current_file` (c_parser.py:527, 698, 833, 1175). -/
def setFile (s : Store V) (f : Option Str) : Store V := { s with cur := f }

/-- Definition data as found in another parser or in an unpickled cache: a kind may be missing there
when the cache is malformed. -/
abbrev RawDefs (V : Type) := Dict (Option Str) (Kind → Option (Dict Str V))

/-- Innermost loop of `import_dict` (c_parser.py:700-701). -/
def importNames (s : Store V) (k : Kind) : List (Str × V) → Store V
  | [] => s
  | (n, v) :: r => importNames (addDef s k n v) k r

/-- Middle loop of `import_dict` (c_parser.py:699-701); a missing kind raises `KeyError`, leaving what
was imported so far. -/
def importKinds (s : Store V) (d : Kind → Option (Dict Str V)) : List Kind → Store V × Option PyErr
  | [] => (s, none)
  | k :: ks =>
    match d k with
    | none => (s, some .keyError)
    | some names => importKinds (importNames s k names) d ks

/-- `CParser.import_dict` (c_parser.py:690-701). -/
def importDict (s : Store V) : RawDefs V → Store V × Option PyErr
  | [] => (s, none)
  | (f, d) :: r =>
    match importKinds (setFile s f) d dataList with
    | (s', some e) => (s', some e)
    | (s', none) => importDict s' r

/-- `file_defs` of a parser seen as import data. -/
def rawOf (fd : Dict (Option Str) (KDefs V)) : RawDefs V := fd.map fun p => (p.1, fun k => some (p.2 k))

/-- `CParser.find` with a string argument (c_parser.py:1716-1730): one result per matching key, for
every file and every kind in order. -/
def find (s : Store V) (name : Str) : List (Option Str × Kind) :=
  s.fileDefs.flatMap fun fd => dataList.flatMap fun k =>
    (fd.2 k).flatMap fun e => if e.1 = name then [(fd.1, k)] else []

/-- `CParser.find` with a compiled pattern (c_parser.py:1727-1729); `m` is `re.match(pattern, ·)`. -/
def findMatch (s : Store V) (m : Str → Bool) : List (Option Str × Kind × Str) :=
  s.fileDefs.flatMap fun fd => dataList.flatMap fun k =>
    (fd.2 k).flatMap fun e => if m e.1 then [(fd.1, k, e.1)] else []

/-- The operations that change the tables. -/
inductive Op (V : Type) where
  | add (k : Kind) (n : Str) (v : V)
  | rem (k : Kind) (n : Str)
  | file (f : Option Str)
  | imp (data : RawDefs V)

/-- One operation; the exception, if any, is caught by the caller (e.g. c_parser.py:964-969) and
the state is kept. -/
def step (s : Store V) : Op V → Store V
  | .add k n v => addDef s k n v
  | .rem k n => (remDef s k n).1
  | .file f => setFile s f
  | .imp d => (importDict s d).1

/-- A history of operations. -/
def runOps (s : Store V) : List (Op V) → Store V
  | [] => s
  | o :: os => runOps (step s o) os

end Pyclib
