import Verif.Spec.IndepText
import Verif.Spec.TextWords
import Verif.Model.File
import Verif.Spec.Store
/-
What the processing of a file looks up in the tables (specification of C85).
-/
namespace Pyclib.Spec

/-- `expand_macros` may ask for a macro `n` when it is given this line: `n` is a word of the line, or a single character at
the end of one (after a string literal `expand_macros` goes on with the last character). -/
def LooksAt (n line : Str) : Prop :=
  n ≠ [] ∧ n.all isWordC = true ∧ ∃ a b, line = a ++ (n ++ b) ∧
    ((∀ c, a.getLast? = some c → isWordC c = false) ∨ n.length = 1) ∧ ∀ c, b.head? = some c → isWordC c = false

/-- Tables of macros. -/
def isMac (k : Kind) : Prop := k = .macros ∨ k = .fnmacros

/-- The text of a `#define`, with the macros in it expanded. -/
def defText (w : Setup) (st : PPState St) (r : Str) : Str :=
  if st.ifTrue.tail.all id = true then w.sem.expand st.env r else r

/-- What the preprocessor may look up for a line. -/
def LineReads (w : Setup) (st : PPState St) : Line → Kind → Str → Prop
  | .code l, k, n | .pragma l, k, n => st.ifTrue.head? = some true ∧ isMac k ∧ LooksAt n l
  | .dif r, k, n => st.ifTrue.all id = true ∧ isMac k ∧ (LooksAt n r ∨ LooksAt n (substDefined (menvOf st.env) r))
  | .delif r, k, n => st.ifTrue.tail.all id = true ∧ st.ifHit.head? = some false ∧ isMac k ∧
      (LooksAt n r ∨ LooksAt n (substDefined (menvOf st.env) r))
  | .define _ r, k, n => st.ifTrue.head? = some true ∧ ((isMac k ∧ LooksAt n r) ∨
      (k = .fnmacros ∧ n = (parseDefine (defText w st r)).2) ∨
      (k = .values ∧ WordIn n (evalText w.castGram (parseDefine (defText w st r)).2)))
  | _, _, _ => False

/-- What `parse_defs` may look up for a text: values of the words of the constant expressions in it (an array without length
has the length `-1`), tags after the keywords `struct`, `union` and `enum`, and generated names if there are structs, unions
or enums without tag. -/
def TextReads (w : Setup) (text : Str) (k : Kind) (n : Str) : Prop :=
  (k = .values ∧ ((∃ y e, Within y ⟨' ', text⟩ ∧ ExprAt w.cfg y e ∧ WordIn n (evalText w.castGram e)) ∨
    WordIn n (evalText w.castGram c%"-1"))) ∨
  ((k = .structs ∨ k = .unions ∨ k = .enums) ∧ ∃ kw ∈ tagWords, ∃ y z, Within y ⟨' ', text⟩ ∧ keyword kw y = some z ∧
    ((∃ v, identP w.cfg z = some (n, v)) ∨ (∃ v, delim '{' z = some v) ∧ ∃ i : Nat, n = c%"anon_" ++ kw ++ natDigits i))

/-- What `process_all` may look up for a file, starting with the tables `s`. -/
def FileReads (w : Setup) (s : St) (path text : Str) (k : Kind) (n : Str) : Prop :=
  (∃ a l b st os, ppLines text = a ++ l :: b ∧
    ppRun w.sem 0 (PPState.init (setFile s (some path))) a = .ok (st, os) ∧ LineReads w st l k n) ∨
  ∃ st out, preprocess w.sem (setFile s (some path)) (removeComments text) = .ok (st, out) ∧ TextReads w out k n

/-- What a file defines, if `s'` are the tables afterwards: what is recorded for it in `file_defs`, and the macros that it
undefines. -/
def FileDefines (s' : St) (path text : Str) (k : Kind) (n : Str) : Prop :=
  recorded s' (some (basename path)) k n ≠ none ∨ (k = .macros ∧ .undef n ∈ ppLines text)

/-- The tables agree on the names in `R`. -/
def AgreeOn (R : Kind → Str → Prop) (s t : St) : Prop := ∀ k n, R k n → dget (s.defs k) n = dget (t.defs k) n

end Pyclib.Spec
