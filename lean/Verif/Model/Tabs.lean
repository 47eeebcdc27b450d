import Verif.Model.File
/-
Model of the expansion of tabs: pyparsing's `parseString` and `scanString` replace the text by
`text.expandtabs()` before they parse it (`transformString` does not).  This concerns the reading of `#define`
(/repo/pyclibrary/c_parser.py:954) and `parse_defs` (1182).  The other definitions of the model read the
text as it stands; C94 says when that makes no difference.
-/
namespace Pyclib

/-- The column after a character: tabs lead to the next multiple of eight. -/
def colAfter1 (k : Nat) (c : Char) : Nat :=
  if c = '\t' then k + (8 - k % 8) else if c = '\n' || c = '\r' then 0 else k + 1

/-- `str.expandtabs()`, from column `k` on. -/
def expandTabs : Nat → Str → Str
  | _, [] => []
  | k, c :: s => (if c = '\t' then List.replicate (8 - k % 8) ' ' else [c]) ++ expandTabs (colAfter1 k c) s

/-- Macro semantics with `self.pp_define.parseString(macroName + " " + rest)` (c_parser.py:954). -/
def Setup.semTab (w : Setup) : PPSem (Store DefVal) :=
  { w.sem with define := fun s n r => defineIn w.ev s n (expandTabs (n.length + 1) r) }

/-- Processing of one file by `process_all` (c_parser.py:592-604), with `parser.scanString(self.files[path])`
(1182). -/
def processFileTab (w : Setup) (s : Store DefVal) (path text : Str) : Except PyErr (Store DefVal × Str) :=
  match preprocess w.semTab (setFile s (some path)) (removeComments text) with
  | .error e => .error e
  | .ok (st, out) =>
    let t := expandTabs 0 out
    match parseDefs (w.gram st.packList t) st.env t with
    | (s', none) => .ok (s', out)
    | (_, some e) => .error e

end Pyclib
