import Verif.Model.Types
/-
Specification of typedef resolution, independent of the algorithm in `Type.eval`.
Only the data types of the model and dictionary lookup are used.
-/
namespace Pyclib.Spec
open Pyclib

/-- `s` is made of the words `ws`, separated and surrounded by white space. -/
inductive WordsOf : Str → List Str → Prop
  | nil (s : Str) (h : ∀ c ∈ s, isSpaceC c = true) : WordsOf s []
  | cons (pre w rest : Str) (ws : List Str)
      (hpre : ∀ c ∈ pre, isSpaceC c = true)
      (hne : w ≠ []) (hw : ∀ c ∈ w, isSpaceC c = false)
      (hrest : ∀ c ∈ rest.head?, isSpaceC c = true)
      (h : WordsOf rest ws) : WordsOf (pre ++ w ++ rest) (w :: ws)

/-- The words that can make up a fundamental C type name. -/
def FundWord (cfg : Cfg) (w : Str) : Prop :=
  w ∈ [c%"int", c%"float", c%"double", c%"char", c%"wchar", c%"wchar_t", c%"bool", c%"void",
       c%"short", c%"long", c%"signed", c%"unsigned",
       c%"int8_t", c%"int16_t", c%"int32_t", c%"int64_t",
       c%"uint8_t", c%"uint16_t", c%"uint32_t", c%"uint64_t", c%"size_t", c%"ssize_t"] ∨
  (cfg.py312 = true ∧ w = c%"time_t") ∨ (cfg.win32 = true ∧ w = c%"__int64") ∨ w ∈ cfg.extraTypes

/-- A type name that is not a typedef name: a struct/union/enum tag or fundamental words only. -/
def Fundamental (cfg : Cfg) (s : Str) : Prop :=
  (∃ r, s = c%"struct " ++ r) ∨ (∃ r, s = c%"union " ++ r) ∨ (∃ r, s = c%"enum " ++ r) ∨
  ∃ ws, WordsOf s ws ∧ ∀ w ∈ ws, FundWord cfg w

/-- One typedef step on names: `s` is a typedef name and its definition is based on `s'`. -/
inductive NameStep (cfg : Cfg) (tm : Dict Str CType) : Str → Str → Prop
  | mk {s : Str} {pt : CType} (hf : ¬ Fundamental cfg s) (h : dget tm s = some pt) :
      NameStep cfg tm s pt.spec

/-- Zero or more typedef steps. -/
inductive Reaches (cfg : Cfg) (tm : Dict Str CType) : Str → Str → Prop
  | refl (s : Str) : Reaches cfg tm s s
  | step {s s' s'' : Str} (h : NameStep cfg tm s s') (r : Reaches cfg tm s' s'') : Reaches cfg tm s s''

/-- The chain starting at `s` comes back to some name it already went through. -/
def Cyclic (cfg : Cfg) (tm : Dict Str CType) (s : Str) : Prop :=
  ∃ c c', Reaches cfg tm s c ∧ NameStep cfg tm c c' ∧ Reaches cfg tm c' c

/-- The chain starting at `s` ends at a name that is neither fundamental nor defined. -/
def Unknown (cfg : Cfg) (tm : Dict Str CType) (s : Str) : Prop :=
  ∃ u, Reaches cfg tm s u ∧ ¬ Fundamental cfg u ∧ dget tm u = none

/-- Splicing the typedef `pt` under the modifiers of `t`: the modifiers of the typedef come first,
and the qualifiers written on the typedef's outermost level and on `t`'s base are merged. -/
def Splice (pt t r : CType) : Prop :=
  ∃ qs a b rest, pt.quals = qs ++ [some a] ∧ t.quals = some b :: rest ∧
    r = ⟨pt.spec, pt.mods ++ t.mods, qs ++ some (a ++ b) :: rest⟩

/-- Result of resolving a type: splice typedefs until the base is fundamental. -/
inductive Resolves (cfg : Cfg) (tm : Dict Str CType) : CType → CType → Prop
  | base {t : CType} (hf : Fundamental cfg t.spec) : Resolves cfg tm t t
  | step {t pt t' r : CType} (hf : ¬ Fundamental cfg t.spec) (h : dget tm t.spec = some pt)
      (hs : Splice pt t t') (hr : Resolves cfg tm t' r) : Resolves cfg tm t r

/-- A type name made of word characters and white space only (what the C grammar produces). -/
def PlainName (s : Str) : Prop := ∀ c ∈ s, isWordC c = true ∨ isSpaceC c = true

/-- One qualifier group for the base plus one per modifier. -/
def QualsMatch (t : CType) : Prop := t.quals.length = 1 + t.mods.length

/-- No calling-convention placeholder (`None`) at the two places where qualifiers get merged. -/
def QualsMergeable (tm : Dict Str CType) (t : CType) : Prop :=
  (∀ q ∈ t.quals.head?, q ≠ none) ∧
  (∀ s pt, dget tm s = some pt →
    (∀ q ∈ pt.quals.getLast?, q ≠ none) ∧ (∀ q ∈ pt.quals.head?, q ≠ none))

/-- `u` is `t` or a parameter type inside it, at any depth. -/
inductive Inside : CType → CType → Prop
  | refl (t : CType) : Inside t t
  | param (t u : CType) (ps : List Param) (p : Param) (hf : .fn ps ∈ t.mods) (hp : p ∈ ps) (h : Inside u p.2.1) :
      Inside u t

end Pyclib.Spec
