import Verif.Model.Call
import Verif.Model.Lib
import Verif.Model.Objects
/-
`CTypesCLibrary` (/repo/pyclibrary/backends/ctypes.py:132-391) as a `CLibrary`: the lookups of
/repo/pyclibrary/c_library.py:88-306 on top of the ctypes backend.
-/
namespace Pyclib

/-- The objects a lookup returns from the backend: a ctypes class, or a wrapped function. -/
inductive CtObj where
  | cls (c : Cls)
  | func (name : Str) (f : CFunc)

/-- `obj is None`: the class of `void` (ctypes.py:211-212). -/
def CtObj.isNone : CtObj → Bool
  | .cls .void => true
  | _ => false

/-- The outcome of a request for a class. -/
def clsObj : Except PyErr Cls × CtState → Except PyErr CtObj × CtState
  | (.ok c, st) => (.ok (.cls c), st)
  | (.error x, st) => (.error x, st)

/-- `_get_function` (c_library.py:323-339): a name that the shared library does not export raises `KeyError`. -/
def getFunction (e : CtEnv) (fns : Dict Str DefVal) (n : Nat) (exports : Str → Bool) (lock : Bool) (f : Str) (st : CtState) :
    Except PyErr CtObj × CtState :=
  if exports f then
    match dget fns f with
    | some (.func (.func r ps _)) =>
      match initFunc e n st r ps lock with
      | (.ok g, st) => (.ok (.func f g), st)
      | (.error x, st) => (.error x, st)
    | some _ => (.error .typeError, st)
    | none => (.error .keyError, st)
  else (.error .keyError, st)

/-- A `CTypesCLibrary`: `fns` is the table of functions (with the same lists as in `e`), `n` bounds the recursion
of `_get_type`. -/
def ctLib (e : CtEnv) (fns : Dict Str DefVal) (n : Nat) (prefixes : List Str) (exports : Str → Bool) (lock : Bool) :
    Lib CtObj CtState where
  defs := fun k => if k = .functions then fns else e.defs k
  prefixes := prefixes
  cfg := e.cfg
  getFunction := getFunction e fns n exports lock
  getType := fun t st => clsObj (getType e n st t)
  getStruct := fun u name st => clsObj (getStruct e (getType e n) st u name)
  isNull := CtObj.isNone

/-- The types of the functions: of each its result, then its parameters (c_parser.py:1512-1527). -/
def fnTypes : Dict Str DefVal → List CType
  | [] => []
  | (_, .func (.func r ps _)) :: d => r :: (ps.map (·.2.1) ++ fnTypes d)
  | _ :: d => fnTypes d

/-- The table of functions with the types `nums`, from number `k` on. -/
def numFns (nums : List CType) : Nat → Dict Str DefVal → Dict Str DefVal
  | _, [] => []
  | k, (f, .func (.func r ps q)) :: d =>
    (f, .func (.func (nums[k]?.getD r) (ps.zipWith (fun p t => (p.1, t, p.2.2)) (nums.drop (k + 1))) q)) ::
      numFns nums (k + 1 + ps.length) d
  | k, x :: d => x :: numFns nums k d

end Pyclib
