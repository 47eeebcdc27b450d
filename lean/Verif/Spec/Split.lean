import Verif.Spec.Reads
import Verif.Spec.Independent
/-
Specification: what the directives and macros of a file look up and define.
-/
namespace Pyclib.Spec
open Pyclib

/-- What the preprocessor may look up for the lines of a file, starting with the tables `s`. -/
def LinesRead (w : Setup) (s : St) (path text : Str) (k : Kind) (n : Str) : Prop :=
  ∃ a l b st os, ppLines text = a ++ l :: b ∧ ppRun w.sem 0 (PPState.init (setFile s (some path))) a = .ok (st, os) ∧ LineReads w st l k n

/-- What the preprocessor defines or undefines for the lines of a file. -/
def LinesDefine (w : Setup) (s : St) (path text : Str) (k : Kind) (n : Str) : Prop :=
  ∃ st os, ppRun w.sem 0 (PPState.init (setFile s (some path))) (ppLines text) = .ok (st, os) ∧ FileDefines st.env path text k n

/-- The macros of the file have nothing to do with declarations of the scope `S`: the values of the macros do not depend on names that these
declarations define, and the macros have no names that these declarations define or whose values or tags they use. -/
structure MacrosApart (w : Setup) (S : Scope) (s : St) (path text : Str) : Prop where
  reads : ∀ n, LinesRead w s path text .values n → ¬ S.names n
  names : ∀ k n, LinesDefine w s path text k n → ¬ S.names n
  vals : ∀ n, LinesDefine w s path text .values n → ¬ S.vals n
  tags : ∀ k n, LinesDefine w s path text k n → ¬ S.tags n

/-- Every line gives one line: none is dropped (skipped `#define`, `#undef` and pragmas are, and pragmas other than `pack`), and no macro
stands for several lines. -/
def PlainLines (w : Setup) (s : St) (path : Str) (lines : List Str) : Prop :=
  ∀ st os, ppRun w.sem 0 (PPState.init (setFile s (some path))) (lines.map classify) = .ok (st, os) →
    os.length = lines.length ∧ ∀ o ∈ os, '\n' ∉ o.text

end Pyclib.Spec
