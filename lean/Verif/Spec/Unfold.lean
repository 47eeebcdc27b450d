import Verif.Spec.Macro
import Verif.Spec.File
/-
Specification of written out macros: what a line, and a whole file, looks like when every use of a macro
is replaced by hand.
-/
namespace Pyclib.Spec
open Pyclib

/-- No word of the line is the name of a macro; nor is its last character, if there are quotation marks
(the last character of a line with a literal is looked up a second time, see C23). -/
def MacroFree (m : MEnv) (l : Str) : Prop :=
  (∀ w, IsWord l w → dget m.macros w = none ∧ dget m.fnmacros w = none) ∧
    (l.count '"' ≤ 1 ∨ ∀ c ∈ l.getLast?, dget m.macros [c] = none)

/-- Characters before the first word of a line: neither word characters nor quotation marks. -/
def Before (pre : Str) : Prop := ∀ c ∈ pre, isWordC c = false ∧ c ≠ '"'

/-- A whole word, followed by `rest`. -/
def WordThen (w rest : Str) : Prop :=
  w ≠ [] ∧ (∀ c ∈ w, isWordC c = true) ∧ ∀ c ∈ rest.head?, isWordC c = false

/-- `Unfold m l l'`: the line `l` becomes `l'` when, from left to right, every use of a macro of `m` is
written out. -/
inductive Unfold (m : MEnv) : Str → Str → Prop where
  /-- nothing to write out; literals are in this last part of a line -/
  | done (l : Str) (h : MacroFree m l) : Unfold m l l
  /-- a word that is no macro stays -/
  | word (pre w rest rest' : Str) (hp : Before pre) (hw : WordThen w rest) (h1 : dget m.macros w = none)
      (h2 : dget m.fnmacros w = none) (h : Unfold m rest rest') : Unfold m (pre ++ w ++ rest) (pre ++ w ++ rest')
  /-- an object-like macro: its replacement text instead of the name -/
  | obj (pre w v rest rest' : Str) (hp : Before pre) (hw : WordThen w rest) (h1 : dget m.macros w = some v)
      (h : Unfold m rest rest') : Unfold m (pre ++ w ++ rest) (pre ++ v ++ rest')
  /-- a call of a function-like macro: its body with the written out arguments instead of the parameters -/
  | call (pre w gap stop stop' : Str) (params args : List Str) (body : List Piece) (f : Str → Str) (hp : Before pre)
      (hw : w ≠ []) (hc : ∀ c ∈ w, isWordC c = true) (hg : ∀ c ∈ gap, isSpaceC c = true)
      (h1 : dget m.macros w = none) (h2 : dget m.fnmacros w = some (compileFn (Spec.text body) params))
      (ok : LineOk body) (nb : ∀ c ∈ Spec.text body, c ≠ '{' ∧ c ≠ '}') (hne : args ≠ [])
      (ha : ∀ a ∈ args, ',' ∉ a ∧ ')' ∉ a) (len : params.length ≤ args.length)
      (hf : ∀ a, a ∈ args → Unfold m (strip a) (f a)) (h : Unfold m stop stop') :
      Unfold m (pre ++ w ++ (gap ++ '(' :: (joinC ',' args ++ ')' :: stop)))
        (pre ++ replaceWords (fun x => (argOf params (args.map f) x).getD x) body ++ stop')

/-- `l'` is `l` with all macros written out, and contains no name of a macro any more. -/
def WrittenOut (m : MEnv) (l l' : Str) : Prop := Unfold m l l' ∧ MacroFree m l'

/-- Two lines of a file: the same line, or the second one with macros written out. -/
inductive LineOut (m : MEnv) : Line → Line → Prop where
  | same (l : Line) : LineOut m l l
  | code (l l' : Str) (h : WrittenOut m l l') : LineOut m (.code l) (.code l')
  | define (x r r' : Str) (h : WrittenOut m r r') : LineOut m (.define x r) (.define x r')
  | pragma (r r' : Str) (h : WrittenOut m r r') : LineOut m (.pragma r) (.pragma r')

/-- Two skipped lines of the same kind, whatever their text. -/
inductive SkipOut : Line → Line → Prop where
  | same (l : Line) : SkipOut l l
  | code (l l' : Str) : SkipOut (.code l) (.code l')
  | define (x r x' r' : Str) : SkipOut (.define x r) (.define x' r')

/-- Two files line by line: conditions may be written differently as long as the same lines are selected,
a selected line may have the macros in force at that place written out. -/
inductive EntriesOut {E : Type} (menv : E → MEnv) : List (Entry E) → List (Entry E) → Prop where
  | nil : EntriesOut menv [] []
  | cond (es es') (h : EntriesOut menv es es') : EntriesOut menv (.cond :: es) (.cond :: es')
  | skip (l l' : Line) (es es') (hl : SkipOut l l') (h : EntriesOut menv es es') :
      EntriesOut menv (.skip l :: es) (.skip l' :: es')
  | sel (e e' : E) (l l' : Line) (es es') (hl : LineOut (menv e) l l') (h : EntriesOut menv es es') :
      EntriesOut menv (.sel e l :: es) (.sel e' l' :: es')

end Pyclib.Spec
