import Verif.Model.Store
/-
Model of `load_cache`, `write_cache`, `process_all` and the bookkeeping of `__init__` / `load_file`
(/repo/pyclibrary/c_parser.py:469-770) over an abstract file system.
-/
namespace Pyclib
variable {V : Type} {O : Type} [DecidableEq O]

/-- What unpickling a file gives.  A field is `none` when looking it up (or comparing it, for the
version) raises; an object that is not a dictionary has all fields `none`. -/
inductive Content (V O : Type) where
  | unreadable
  | obj (opts : Option O) (version : Option Int) (fileDefs : Option (RawDefs V))

/-- One file: modification time and content (as a pickle). -/
structure FileInfo (V O : Type) where
  mtime : Nat
  content : Content V O

/-- File system: a path is a file iff it is mapped. -/
abbrev FS (V O : Type) := Str → Option (FileInfo V O)

/-- The parser as far as caching is concerned: tables, `file_order`, `init_opts`. -/
structure Parser (V O : Type) where
  store : Store V
  fileOrder : List Str
  opts : O

/-- `CParser.cache_version` (c_parser.py:464). -/
def cacheVersion : Int := 2

/-- The path the cache is read from (c_parser.py:637-645): the given one if it is a file, else the
same name under the module's `headers` directory, else none.  `modPath` is
`os.path.join(dirname(__file__), "headers", ·)`. -/
def cachePath (modPath : Str → Str) (fs : FS V O) (p : Str) : Option Str :=
  if (fs p).isSome then some p
  else if (fs (modPath p)).isSome then some (modPath p)
  else none

/-- `os.path.isfile(f) and os.stat(f).st_mtime > mtime` (c_parser.py:653). -/
def newerThan (fs : FS V O) (mtime : Nat) (f : Str) : Bool :=
  match fs f with
  | some i => decide (mtime < i.mtime)
  | none => false

/-- The validity checks inside the `try` block (c_parser.py:663-680): true when the cache is
rejected, by comparison or by an exception. -/
def contentRejected (opts : O) (check : Bool) (o : Option O) (v : Option Int) : Bool :=
  if check then
    match o with
    | none => true
    | some o =>
      if o ≠ opts then true
      else match v with
        | none => true
        | some v => decide (v < cacheVersion)
  else false

/-- The `try` block of `load_cache` (c_parser.py:657-688) after reading the file: the exception
handler turns every exception into `False`, keeping whatever was imported before. -/
def loadContent (p : Parser V O) (check : Bool) : Content V O → Parser V O × Bool
  | .unreadable => (p, false)
  | .obj opts version fileDefs =>
    if contentRejected p.opts check opts version then (p, false)
    else match fileDefs with
      | none => (p, false)
      | some d =>
        match importDict p.store d with
        | (s, none) => ({ p with store := s }, true)
        | (s, some _) => ({ p with store := s }, false)

/-- `CParser.load_cache` (c_parser.py:612-688).  The `ValueError` for a cache argument that is not a
`str` is excluded by typing. -/
def loadCache (modPath : Str → Str) (fs : FS V O) (p : Parser V O) (cache : Str) (check : Bool) :
    Parser V O × Bool :=
  match cachePath modPath fs cache with
  | none => (p, false)
  | some path =>
    match fs path with
    | none => (p, false)
    | some info =>
      if check && p.fileOrder.any (newerThan fs info.mtime) then (p, false)
      else loadContent p check info.content

/-- `CParser.write_cache` (c_parser.py:703-712), writing at time `now`; pickling followed by
unpickling is taken to be the identity. -/
def writeCache (fs : FS V O) (p : Parser V O) (cache : Str) (now : Nat) : FS V O :=
  fun q => if q = cache then
      some ⟨now, .obj (some p.opts) (some cacheVersion) (some (rawOf p.store.fileDefs))⟩
    else fs q

/-- The per-file work of `process_all` (c_parser.py:592-604): `remove_comments`, `preprocess`,
`parse_defs` seen as an arbitrary state transformer that may raise. -/
abbrev ParseFile (V O : Type) := Str → Parser V O → Except PyErr (Parser V O)

/-- The loop of `process_all` (c_parser.py:585-604), recording which files were parsed. -/
def parseAll (pf : ParseFile V O) : List Str → Parser V O → Except PyErr (Parser V O × List Str)
  | [], p => .ok (p, [])
  | f :: fs, p =>
    match pf f p with
    | .error e => .error e
    | .ok p' =>
      match parseAll pf fs p' with
      | .error e => .error e
      | .ok (p'', t) => .ok (p'', f :: t)

/-- Result of `process_all`: the parser, the file system, and the list of files parsed (`none` when
the cache was used). -/
structure ProcResult (V O : Type) where
  parser : Parser V O
  fs : FS V O
  parsed : Option (List Str)

/-- `CParser.process_all` (c_parser.py:544-610) at time `now`.  The check for files that could not
be loaded (c_parser.py:586-590) is omitted: such files are never put in `file_order`
(c_parser.py:749-764). -/
def processAll (modPath : Str → Str) (pf : ParseFile V O) (fs : FS V O) (p : Parser V O)
    (cache : Option Str) (check : Bool) (now : Nat) : Except PyErr (ProcResult V O) :=
  let loaded := match cache with
    | none => (p, false)
    | some c => loadCache modPath fs p c check
  if loaded.2 then .ok ⟨loaded.1, fs, none⟩
  else match parseAll pf loaded.1.fileOrder loaded.1 with
    | .error e => .error e
    | .ok (p', t) =>
      match cache with
      | none => .ok ⟨p', fs, some t⟩
      | some c => .ok ⟨p', writeCache fs p' c now, some t⟩

/-- Constructor arguments (c_parser.py:469-479).  `kwargs` are the extra definitions, `copyFrom` the
`file_defs` of other parsers. -/
structure CtorArgs (V : Type) where
  files : List Str
  copyFrom : List (Dict (Option Str) (KDefs V))
  replace : Option (List (Str × Str))
  encoding : Str
  kwargs : List (Kind × Str × V)

/-- `init_opts` (c_parser.py:493-495, 764-769): keyword arguments, base names of the files in load
order, and the replacements recorded per base name. -/
structure InitOpts (V : Type) where
  kwargs : List (Kind × Str × V)
  files : List Str
  replace : Dict Str (Option (List (Str × Str)))
  deriving DecidableEq

/-- `init_opts` after `__init__` has loaded the given files, all of which exist
(c_parser.py:493-518 with `load_file`, 728-770). -/
def initOpts (a : CtorArgs V) : InitOpts V :=
  { kwargs := a.kwargs
    files := a.files.map basename
    replace := a.files.foldl (fun d f => dset d (basename f) a.replace) [] }

/-- The loop over `kwargs` in `__init__` (c_parser.py:530-532). -/
def addKwargs (s : Store V) : List (Kind × Str × V) → Store V
  | [] => s
  | (k, n, v) :: r => addKwargs (addDef s k n v) r

/-- The tables of a new parser before `process_all` (c_parser.py:521-532) without `copy_from`. -/
def initStore (kw : List (Kind × Str × V)) : Store V := addKwargs Store.empty kw

/-- The tables of a new parser before `process_all`, with `copy_from` (c_parser.py:535-539). -/
def initStoreFrom (a : CtorArgs V) : Store V :=
  a.copyFrom.foldl (fun s d => (importDict s (rawOf d)).1) (initStore a.kwargs)

end Pyclib
