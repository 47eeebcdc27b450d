import Verif.Spec.Relaid
import Verif.Spec.File
/-
Specification: files that differ inside a region that is skipped.
-/
namespace Pyclib.Spec
open Pyclib

/-- After the lines `la` text is skipped. -/
def Off (w : Setup) (s : Store DefVal) (path : Str) (la : List Str) : Prop :=
  ∀ st os, ppRun w.sem 0 (PPState.init (setFile s (some path))) (la.map classify) = .ok (st, os) → st.ifTrue.head? = some false

/-- The line is neither a definition nor a pragma. -/
def NoEffect (t : Str) : Prop := (∀ n r, classify t ≠ .define n r) ∧ (∀ n, classify t ≠ .undef n) ∧ ∀ r, classify t ≠ .pragma r

/-- What the lines `la` and `lb` around the region give may be moved apart: the first does not end with a backslash, the second does not begin
with a number or a sign. -/
def Loose (w : Setup) (s : Store DefVal) (path : Str) (la lb : List Str) : Prop :=
  ∀ st os, ppRun w.sem 0 (PPState.init (setFile s (some path))) (la.map classify) = .ok (st, os) →
    (joinC '\n' (os.map Out.text)).getLast? ≠ some '\\' ∧
    ∀ i st' os', ppRun w.sem i st (lb.map classify) = .ok (st', os') →
      Starts (joinC '\n' (os'.map Out.text)) ∧ (joinC '\n' (os'.map Out.text)).getLast? ≠ some '\\'

end Pyclib.Spec
