import Verif.Model.Comments
import Verif.Model.PPExpr
import Verif.Model.Eval
/-
Model of the processing of one header file (/repo/pyclibrary/c_parser.py:585-604): `remove_comments`,
`preprocess` and `parse_defs` working on the same definition tables.

Here the macro tables are part of the definition tables (`add_def`/`rem_def`), and a definition of an
object-like macro also records a value (1055-1057).
-/
namespace Pyclib

/-- What the processing depends on: configuration of the grammar, extra modifiers, names of types that
failed (see `Model.Grammar`), and Python outside the modelled fragments: `py` for values, `orc` for
`str.format`, `pyo` for conditions. -/
structure Setup where
  cfg : Cfg
  mods : List Str
  junk : Str → Str
  py : Dict Str DefVal → Str → PVal
  orc : Str → List Str → Option Str
  pyo : Str → Option Bool

/-- The grammar that `CParser.eval` uses for casts (c_parser.py:1661). -/
def Setup.castGram (w : Setup) : Gram := ⟨w.cfg, w.mods, fun _ _ => .none, fun _ => none, w.junk⟩

/-- `eval_expr` (c_parser.py:1633-1656). -/
def Setup.ev (w : Setup) : EvalExpr := evalExpr w.castGram w.py

/-- The text of a macro. -/
def DefVal.macro? : DefVal → Option Str
  | .macro s => some s
  | _ => none

/-- A function-like macro. -/
def DefVal.fnmacro? : DefVal → Option (Str × List Nat)
  | .fnmacro f => some f
  | _ => none

/-- A table with the entries of one kind. -/
def dproj {α β : Type} (f : α → Option β) (d : Dict Str α) : Dict Str β :=
  d.filterMap fun p => (f p.2).map fun b => (p.1, b)

/-- `self.defs["macros"]` and `self.defs["fnmacros"]`. -/
def menvOf (s : Store DefVal) : MEnv :=
  ⟨dproj DefVal.macro? (s.defs .macros), dproj DefVal.fnmacro? (s.defs .fnmacros)⟩

/-- `process_macro_defn` (c_parser.py:1044-1071) on the text `name + " " + rest`. -/
def defineIn (ev : EvalExpr) (s : Store DefVal) (name rest : Str) : Store DefVal :=
  let d := parseDefine rest
  match dget (s.defs .fnmacros) d.2 with
  | some f => addDef s .fnmacros name f
  | none =>
    match d.1 with
    | none =>
      let val := evIn ev s d.2
      addDef (addDef s .macros name (.macro d.2)) .values name (.value val)
    | some ps => addDef s .fnmacros name (.fnmacro (compileFn d.2 ps))

/-- The macro semantics of `preprocess` on the definition tables: expansion, conditions, `#define`,
`#undef` (c_parser.py:886-907, 943-970). -/
def Setup.sem (w : Setup) : PPSem (Store DefVal) where
  expand s l := expandMacros w.orc (menvOf s) l
  cond s r := match condE w.orc w.pyo (menvOf s) r with
    | .ok b => b
    | .error _ => false
  define s n r := defineIn w.ev s n r
  undef s n := (remDef s .macros n).1

/-- The grammar for a text with the list of packings found by `preprocess` (c_parser.py:1529-1545). -/
def Setup.gram (w : Setup) (packs : List (Nat × Option Nat)) (text : Str) : Gram :=
  ⟨w.cfg, w.mods, w.ev, fun n => structPacking packs text (text.length - n), w.junk⟩

/-- Processing of one file by `process_all` (c_parser.py:592-604): the tables afterwards and the text that
was parsed. -/
def processFile (w : Setup) (s : Store DefVal) (path text : Str) : Except PyErr (Store DefVal × Str) :=
  match preprocess w.sem (setFile s (some path)) (removeComments text) with
  | .error e => .error e
  | .ok (st, out) =>
    match parseDefs (w.gram st.packList out) st.env out with
    | (s', none) => .ok (s', out)
    | (_, some e) => .error e

/-- The loop of `process_all` over the files (c_parser.py:585-604). -/
def processFiles (w : Setup) (s : Store DefVal) : List (Str × Str) → Except PyErr (Store DefVal)
  | [] => .ok s
  | (path, text) :: fs =>
    match processFile w s path text with
    | .error e => .error e
    | .ok (s', _) => processFiles w s' fs

end Pyclib
