import Verif.Spec.Ctypes
import Verif.Spec.Tables
/-
Specification of the way from the declarations of a header to ctypes classes: C types with typedef names
replaced, and the conditions on the definitions in terms of what the header declares.
-/
namespace Pyclib.Spec
open Pyclib

section
variable (cfg : Cfg) (typedef : Str → CTy → Prop)

mutual
/-- `Expand k u v`: `v` is the C type `u` with typedef names replaced by the types they were declared with, at
most `k` deep (`typedef n t`: name `n` was declared with type `t`). -/
inductive Expand : Nat → CTy → CTy → Prop
  | fund (k : Nat) (s : Str) (hf : Fundamental cfg s) : Expand k (.base s) (.base (dropSigned s))
  | name (k : Nat) (s : Str) (u v : CTy) (hf : ¬ Fundamental cfg s) (hd : typedef s u) (h : Expand k u v) :
      Expand (k + 1) (.base s) v
  | ptr (k : Nat) (u v : CTy) (h : Expand k u v) : Expand k (.ptr u) (.ptr v)
  | ref (k : Nat) (u v : CTy) (h : Expand k u v) : Expand k (.ref u) (.ref v)
  | arr (k : Nat) (n : Option Int) (u v : CTy) (h : Expand k u v) : Expand k (.arr n u) (.arr n v)
  | fn (k : Nat) (cs ds : List (Option Str × CTy)) (u v : CTy) (hp : ExpandParams k cs ds) (h : Expand k u v) :
      Expand k (.fn cs u) (.fn ds v)
/-- The same for parameters. -/
inductive ExpandParams : Nat → List (Option Str × CTy) → List (Option Str × CTy) → Prop
  | nil (k : Nat) : ExpandParams k [] []
  | cons (k : Nat) (n : Option Str) (u v : CTy) (cs ds : List (Option Str × CTy)) (h : Expand k u v)
      (hs : ExpandParams k cs ds) : ExpandParams k ((n, u) :: cs) ((n, v) :: ds)
end

end

/-- The typedefs of a header: a name stands for the C type its entry denotes. -/
def TypedefOf (s : Store DefVal) (n : Str) (u : CTy) : Prop :=
  ∃ t, dget (s.defs .types) n = some (.type t) ∧ Denotes t u

/-- The C type of a recorded `Type`, typedefs taken into account. -/
def CMeaning (cfg : Cfg) (s : Store DefVal) (t : CType) (v : CTy) : Prop :=
  ∃ u k, Denotes t u ∧ Expand cfg (TypedefOf s) k u v

/-- Conditions on the shape of a type: resolved, functions are pointed to exactly once; array brackets do not
meet those of a typedef; types used several times (`shared`) have no neighbouring brackets. -/
def ShapeOk (cfg : Cfg) (s : Store DefVal) (shared : Bool) (t : CType) : Prop :=
  ∀ b, Resolves cfg (typeTable (s.defs .types)) t b → FnPtrs cfg.win32 b.mods ∧ (shared = true → NoAdj b.mods) ∧
    ∀ pre, b.mods = pre ++ t.mods → NoAdj (pre ++ t.mods.take 1)

/-- The same for a type and the types of parameters inside. -/
def ShapesOk (cfg : Cfg) (s : Store DefVal) (shared : Bool) (t : CType) : Prop :=
  ShapeOk cfg s shared t ∧ ∀ ps p u, .fn ps ∈ t.mods → p ∈ ps → Inside u p.2.1 → ShapeOk cfg s true u

/-- A struct or union tag of the header. -/
def DefinedTag (s : Store DefVal) (u : Bool) (tag : Str) : Prop := dhas (s.defs (compKind u)) tag = true

/-- Conditions on the definitions of a header under which the ctypes backend builds the right classes. -/
structure LibOk (cfg : Cfg) (types : Dict Str Str) (s : Store DefVal) : Prop where
  words : ∀ w ∈ [c%"struct", c%"union", c%"enum"], ¬ FundWord cfg w
  simple : ∀ u tag, dget types (compWord u ++ ' ' :: tag) = none
  typedefs : ∀ n t, IsName cfg n → dget (s.defs .types) n = some (.type t) → ShapesOk cfg s true t ∧
    ∀ q ∈ t.quals.getLast?, q ≠ none
  members : ∀ u tag ms pack m, dget (s.defs (compKind u)) tag = some (.compound ms pack) → m ∈ ms →
    ShapesOk cfg s false m.type ∧ FiniteParams ⟨cfg, s.defs, types⟩ m.type ∧
    ∃ v, CMeaning cfg s m.type v ∧ Buildable types (DefinedTag s) v ∧ v ≠ .base c%"void" ∧
      (m.name = none → ∃ u' tag', v = .base (compWord u' ++ ' ' :: tag')) ∧
      ∀ n k, m.name = some n → n ≠ c%"anon_member" ++ natDigits k

end Pyclib.Spec
