import Verif.Model.Lib
import Verif.Model.Ctypes
/-
Model of /repo/pyclibrary/utils.py (search of headers and libraries, architecture of libraries), of
`CParser.find_headers` (c_parser.py:714-726) and of /repo/pyclibrary/init.py with the initialisers it
calls.
-/
namespace Pyclib

/-! ### Search -/

/-- The outside world of a search: `os.path.isdir`, `os.path.isfile`, `os.path.join` with two arguments,
`sys.platform`, and `thirdparty.find_library` (which runs ldconfig, gcc or `ctypes.util`; not modelled). -/
structure SearchFS where
  isDir : Str → Bool
  isFile : Str → Bool
  join : Str → Str → Str
  platform : Str
  findLib : Str → Option Str

/-- Python's lists of directories, by identity: `HEADER_DIRS` and `LIBRARY_DIRS` (utils.py:32, 99) and the
lists of the caller. -/
abbrev ListHeap := Nat → List Str

/-- Assignment to the contents of a list object. -/
def hset (h : ListHeap) (r : Nat) (l : List Str) : ListHeap := fun k => if k = r then l else h k

/-- The identity of `HEADER_DIRS`. -/
def headerRef : Nat := 0

/-- The identity of `LIBRARY_DIRS`. -/
def libraryRef : Nat := 1

/-- `add_header_locations` (utils.py:35-42) and `add_library_locations` (utils.py:102-109), which differ in
the list that is extended; the warning is not modelled. -/
def addLocations (fs : SearchFS) (h : ListHeap) (ref : Nat) (ds : List Str) : ListHeap :=
  hset h ref (h ref ++ ds.filter fs.isDir)

/-- The directories added for the platform (utils.py:75-89). -/
def platformDirs (platform : Str) : List Str :=
  (if platform = c%"darwin" then
    [c%"/usr/local/include", c%"/usr/include", c%"/System/Library/Frameworks", c%"/Library/Frameworks"]
  else []) ++
  (if platform = c%"linux2" then [c%"/usr/local/include", c%"/usr/target/include", c%"/usr/include"] else [])

/-- The loop over the directories (utils.py:91-94, 142-145). -/
def searchDirs (fs : SearchFS) (name : Str) : List Str → Option Str
  | [] => none
  | d :: ds => if fs.isFile (fs.join d name) then some (fs.join d name) else searchDirs fs name ds

/-- `dirs += L[::-1]` for a non-empty list of the caller, a new list otherwise (utils.py:70-73, 137-140),
then `dirs.extend(extra)`: the list searched and the lists afterwards. -/
def extendDirs (h : ListHeap) (ref : Nat) (extra : List Str) : Option Nat → List Str × ListHeap
  | none => ((h ref).reverse ++ extra, h)
  | some r =>
    if h r = [] then ((h ref).reverse ++ extra, h)
    else
      let l := h r ++ (h ref).reverse ++ extra
      (l, hset h r l)

/-- `find_header` (utils.py:45-96); `dirs` is the identity of the list of the caller. -/
def findHeader (fs : SearchFS) (h : ListHeap) (name : Str) (dirs : Option Nat) : Except PyErr Str × ListHeap :=
  let (ds, h) := extendDirs h headerRef (platformDirs fs.platform) dirs
  match searchDirs fs name ds with
  | some p => (.ok p, h)
  | none => (.error .osError, h)

/-- `find_library` (utils.py:112-151); the result is the path of the `LibraryPath`.  An empty answer of
`find_lib` counts as none. -/
def findLibrary (fs : SearchFS) (h : ListHeap) (name : Str) (dirs : Option Nat) : Except PyErr Str × ListHeap :=
  let (ds, h) := extendDirs h libraryRef [] dirs
  match searchDirs fs name ds with
  | some p => (.ok p, h)
  | none =>
    match fs.findLib name with
    | some p => if p = [] then (.error .osError, h) else (.ok p, h)
    | none => (.error .osError, h)

/-- `CParser.find_headers` (c_parser.py:714-726). -/
def findHeaders (fs : SearchFS) (h : ListHeap) : List Str → Except PyErr (List Str)
  | [] => .ok []
  | x :: xs =>
    match (if fs.isFile x then .ok x else (findHeader fs h x none).1 : Except PyErr Str) with
    | .error e => .error e
    | .ok p =>
      match findHeaders fs h xs with
      | .error e => .error e
      | .ok ps => .ok (p :: ps)

/-- What a program can do with the search functions; the file system may change between the calls.
`user` is any change of a list of the caller. -/
inductive SearchOp where
  | addHeader (fs : SearchFS) (ds : List Str)
  | addLibrary (fs : SearchFS) (ds : List Str)
  | findHeader (fs : SearchFS) (name : Str) (dirs : Option Nat)
  | findLibrary (fs : SearchFS) (name : Str) (dirs : Option Nat)
  | user (r : Nat) (l : List Str)

/-- One call. -/
def searchStep (h : ListHeap) : SearchOp → ListHeap
  | .addHeader fs ds => addLocations fs h headerRef ds
  | .addLibrary fs ds => addLocations fs h libraryRef ds
  | .findHeader fs n r => (findHeader fs h n r).2
  | .findLibrary fs n r => (findLibrary fs h n r).2
  | .user r l => hset h r l

/-- A sequence of calls. -/
def searchRun (h : ListHeap) : List SearchOp → ListHeap
  | [] => h
  | o :: os => searchRun (searchStep h o) os

/-- The lists after import: `bundled` is the directory `headers` of the package (utils.py:32, 99). -/
def searchStart (bundled : Str) : ListHeap := fun r => if r = headerRef then [bundled] else []

/-! ### Architecture -/

/-- `machine_types` (utils.py:227-257). -/
def machineTypes : Dict Nat Str :=
  [(0, c%"UNKNOWN"), (0x014C, c%"I386"), (0x0162, c%"R3000"), (0x0166, c%"R4000"), (0x0168, c%"R10000"),
   (0x0169, c%"WCEMIPSV2"), (0x0184, c%"ALPHA"), (0x01A2, c%"SH3"), (0x01A3, c%"SH3DSP"), (0x01A4, c%"SH3E"),
   (0x01A6, c%"SH4"), (0x01A8, c%"SH5"), (0x01C0, c%"ARM"), (0x01C2, c%"THUMB"), (0x01C4, c%"ARMNT"),
   (0x01D3, c%"AM33"), (0x01F0, c%"POWERPC"), (0x01F1, c%"POWERPCFP"), (0x0200, c%"IA64"), (0x0266, c%"MIPS16"),
   (0x0284, c%"ALPHA64"), (0x0366, c%"MIPSFPU"), (0x0466, c%"MIPSFPU16"), (0x0520, c%"TRICORE"), (0x0CEF, c%"CEF"),
   (0x0EBC, c%"EBC"), (0x8664, c%"AMD64"), (0x9041, c%"M32R"), (0xC0EE, c%"CEE")]

/-- Little-endian number (`struct.unpack` on Windows). -/
def leNat : List UInt8 → Nat
  | [] => 0
  | b :: bs => b.toNat + 256 * leNat bs

/-- `get_shared_library_arch` (utils.py:260-278) on Windows, where `l` has 4 bytes, as a function of the
contents of the file.  A negative offset makes `seek` raise `ValueError`; the bare `Exception`s are
written `runtimeError`. -/
def sharedLibraryArch (b : List UInt8) : Except PyErr Str :=
  let dos := b.take 64
  if dos.length ≠ 64 then .error .structError
  else
    let magic := dos.take 2
    let offset := leNat (dos.drop 60)
    if magic ≠ [0x4D, 0x5A] then .error .runtimeError
    else if offset ≥ 2 ^ 31 then .error .valueError
    else
      let pe := (b.drop offset).take 6
      if pe.length ≠ 6 then .error .structError
      else
        let sig := pe.take 2
        let machine := leNat (pe.drop 4)
        if sig ≠ [0x50, 0x45] then .error .runtimeError
        else
          match dget machineTypes machine with
          | some s => .ok s
          | none => .ok c%"UNKNOWN"

/-- A file as seen by `get_arch`: its contents (none if it cannot be read), and the output of
`file <filename>` decoded as ASCII (an error if the command fails or the output is not ASCII). -/
structure LibFile where
  bytes : Except PyErr (List UInt8)
  fileOutput : Except PyErr Str

/-- `get_arch` (utils.py:197-224). -/
def getArch (platform : Str) (f : LibFile) : Except PyErr (List Nat) :=
  if startsWith platform c%"win" then
    match f.bytes with
    | .error e => .error e
    | .ok b =>
      match sharedLibraryArch b with
      | .error e => .error e
      | .ok m =>
        if m = c%"I386" then .ok [32]
        else if m = c%"IA64" ∨ m = c%"AMD64" then .ok [64]
        else .ok []
  else if platform ∉ [c%"linux2", c%"linux3", c%"linux", c%"darwin"] then .error .osError
  else
    match f.fileOutput with
    | .error e => .error e
    | .ok out =>
      if startsWith platform c%"linux" then
        .ok ((if contains out c%"32-bit" then [32] else []) ++ (if contains out c%"64-bit" then [64] else []))
      else
        .ok ((if contains out c%"(for architecture i386)" then [32] else []) ++
          (if contains out c%"(for architecture x86_64)" then [64] else []))

/-- `LibraryPath.arch` (utils.py:168-176) of a new `LibraryPath`; the class caches the result per object,
and `CLibraryMeta.__call__` makes a new object for each call. -/
def libArch (platform : Str) (f : LibFile) : List Nat :=
  match getArch platform f with
  | .ok l => l
  | .error _ => []

/-- `LibraryPath.is_32bit`, `is_64bit` (utils.py:178-188): `none` stands for `'n/a'`. -/
def isBits (platform : Str) (f : LibFile) (n : Nat) : Option Bool :=
  if libArch platform f = [] then none else some (decide (n ∈ libArch platform f))

/-- `py_bitness` (c_library.py:66). -/
def pyBitness (maxsize : Nat) : Nat := if maxsize > 2 ^ 32 then 64 else 32

/-! ### Initialisation -/

/-- The interpreter. -/
structure Interp where
  win32 : Bool
  py312 : Bool

/-- The global state that initialisation sets: the flags `CParser._init` and `CLibrary._init`
(c_parser.py:467, c_library.py:156), `extra_type_list` and the extra modifiers of the grammar
(c_parser.py:1846-1902), `CTypesCLibrary._types_` (ctypes.py:402-450). A ctypes class is named by its
name; `none` stands for `None`. -/
structure Globals where
  parserInit : Bool
  libInit : Bool
  extraTypes : List Str
  modifiers : List Str
  ctypes : Option (Dict Str (Option Str))

/-- The state after import. -/
def Globals.start : Globals := ⟨false, false, [], [], none⟩

/-- `WIN_TYPES` of the backend (ctypes.py:394-399), only defined on Windows. -/
def backendWinTypes : Dict Str (Option Str) :=
  [(c%"__int64", some c%"c_longlong"), (c%"unsigned __int64", some c%"c_ulonglong"), (c%"HRESULT", some c%"HRESULT")]

/-- `d.update(e)`. -/
def dupdate (d e : Dict Str (Option Str)) : Dict Str (Option Str) := e.foldl (fun d p => dset d p.1 p.2) d

/-- One step of the loop over the extra types on Windows (ctypes.py:440-443). -/
def winClass (p : Str × Option Str) : Str × Option Str := (p.1, (dget backendWinTypes p.1).getD p.2)

/-- The changes `init_clibrary` makes to the dictionary `extra_types` (ctypes.py:440-447). -/
def completeTypes (i : Interp) (extra : Dict Str (Option Str)) : Dict Str (Option Str) :=
  let extra := if i.win32 then extra.map winClass else extra
  if i.py312 then dset extra c%"time_t" (some c%"c_time_t") else extra

/-- The standard types (ctypes.py:404-438). -/
def standardTypes : Dict Str (Option Str) := ctypesTable.map (fun p => (p.1, some p.2))

/-- `init` (init.py:22-43) with `_init_cparser` (c_parser.py:1846-1902, the tables only) and
`init_clibrary` (ctypes.py:402-450).  An empty or missing argument counts as empty. -/
def initCall (i : Interp) (g : Globals) (types : Dict Str (Option Str)) (mods : List Str) : Except PyErr Unit × Globals :=
  if g.parserInit || g.libInit then (.error .runtimeError, g)
  else (.ok (), ⟨true, true, dkeys types, mods, some (dupdate standardTypes (completeTypes i types))⟩)

/-- `WIN_TYPES` (init.py:46). -/
def initWinTypes : Dict Str (Option Str) := [(c%"__int64", none)]

/-- `WIN_MODIFIERS` (init.py:47-57). -/
def winModifiers : List Str :=
  [c%"__based", c%"__declspec", c%"__fastcall", c%"__restrict", c%"__sptr", c%"__uptr", c%"__w64",
   c%"__unaligned", c%"__nullterminated"]

/-- `auto_init` (init.py:60-81); `os` is the argument. -/
def autoInit (i : Interp) (g : Globals) (types : Dict Str (Option Str)) (mods : List Str) (os : Option Str) :
    Except PyErr Unit × Globals :=
  if os = some c%"win32" ∨ i.win32 = true then initCall i g (dupdate types initWinTypes) (mods ++ winModifiers)
  else initCall i g types mods

/-- What a program can do: `init`, `auto_init`, or create a `CParser` (which initialises automatically,
c_parser.py:480-484; also `win_defs`, 369-373, and `CLibrary` with a list of headers). -/
inductive InitOp where
  | init (types : Dict Str (Option Str)) (mods : List Str)
  | auto (types : Dict Str (Option Str)) (mods : List Str) (os : Option Str)
  | parser

/-- One call. -/
def initStep (i : Interp) (g : Globals) : InitOp → Except PyErr Unit × Globals
  | .init t m => initCall i g t m
  | .auto t m os => autoInit i g t m os
  | .parser => if g.parserInit then (.ok (), g) else autoInit i g [] [] none

/-- A sequence of calls. -/
def initRun (i : Interp) (g : Globals) : List InitOp → Globals
  | [] => g
  | o :: os => initRun i (initStep i g o).2 os

end Pyclib
