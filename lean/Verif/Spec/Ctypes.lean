import Verif.Spec.Types
import Verif.Spec.Decl
import Verif.Model.Ctypes
/-
Specification for the ctypes backend: the C type a recorded `Type` stands for once typedefs are taken into
account, and what it means for a ctypes class to mirror a C type.
-/
namespace Pyclib.Spec
open Pyclib

section
variable (cfg : Cfg) (tm : Dict Str CType) (dim : Int → Option Int)

mutual
/-- `MeansMods b ms v`: declaring something with base type `b` and the modifiers `ms` gives it the C type
`v`.  Each modifier wraps what precedes it; a run of array brackets in one declarator lists the dimensions
in declaration order; `dim i` is the length in brackets number `i`. -/
inductive MeansMods : CTy → List CMod → CTy → Prop
  | nil (b : CTy) : MeansMods b [] b
  | ptr (b : CTy) (ms : List CMod) (v : CTy) (h : MeansMods (.ptr b) ms v) : MeansMods b (.sym c%"*" :: ms) v
  | ref (b : CTy) (ms : List CMod) (v : CTy) (h : MeansMods (.ref b) ms v) : MeansMods b (.sym c%"&" :: ms) v
  | conv (c : Str) (b : CTy) (ms : List CMod) (v : CTy) (hc : c = c%"__stdcall" ∨ c = c%"__cdecl")
      (h : MeansMods b ms v) : MeansMods b (.sym c :: ms) v
  | arrs (i : Int) (is : List Int) (b : CTy) (ms : List CMod) (v : CTy) (hm : ∀ l, ms.head? ≠ some (.arr l))
      (h : MeansMods (arrsOf ((i :: is).map dim) b) ms v) :
      MeansMods b ((i :: is).map (fun i => .arr [some i]) ++ ms) v
  | fn (ps : List Param) (cs : List (Option Str × CTy)) (b : CTy) (ms : List CMod) (v : CTy)
      (hp : MeansParams ps cs) (h : MeansMods (.fn cs b) ms v) : MeansMods b (.fn ps :: ms) v
/-- Names and types of parameters. -/
inductive MeansParams : List Param → List (Option Str × CTy) → Prop
  | nil : MeansParams [] []
  | cons (n : Option Str) (t : CType) (d : Option Str) (ps : List Param) (v : CTy)
      (cs : List (Option Str × CTy)) (h : Means t v) (hs : MeansParams ps cs) :
      MeansParams ((n, t, d) :: ps) ((n, v) :: cs)
/-- The C type of a `Type`: a typedef name stands for the whole type it was declared with. -/
inductive Means : CType → CTy → Prop
  | fund (t : CType) (v : CTy) (hf : Fundamental cfg t.spec)
      (h : MeansMods (.base (dropSigned t.spec)) t.mods v) : Means t v
  | typedef (t pt : CType) (b v : CTy) (hf : ¬ Fundamental cfg t.spec) (hd : dget tm t.spec = some pt)
      (hp : Means pt b) (h : MeansMods b t.mods v) : Means t v
end

end

/-- The types whose pointers have a class of their own in ctypes. -/
def specialPtr : Str → Option Str
  | s => if s = c%"char" then some c%"c_char_p" else if s = c%"wchar" ∨ s = c%"wchar_t" then some c%"c_wchar_p"
    else if s = c%"void" then some c%"c_void_p" else none

/-- A base type whose pointers are ordinary. -/
def Ordinary (t : CTy) : Prop := t.isFn = false ∧ ∀ s, t = .base s → specialPtr s = none

section
variable (types : Dict Str Str) (structs : Dict Str Nat)

mutual
/-- `Mirrors c v`: the ctypes class `c` has the structure of the C type `v`.  `types` are the simple types,
`structs` the classes made for struct and union tags. -/
inductive Mirrors : Cls → CTy → Prop
  | void : Mirrors .void (.base c%"void")
  | prim (s p : Str) (h : dget types s = some p) : Mirrors (.prim p) (.base s)
  | enum (tag : Str) : Mirrors (.prim c%"c_int") (.base (c%"enum " ++ tag))
  | struct (tag : Str) (id : Nat) (h : dget structs tag = some id) : Mirrors (.comp id) (.base (c%"struct " ++ tag))
  | union (tag : Str) (id : Nat) (h : dget structs tag = some id) : Mirrors (.comp id) (.base (c%"union " ++ tag))
  | special (s p : Str) (h : specialPtr s = some p) : Mirrors (.prim p) (.ptr (.base s))
  | ptr (c : Cls) (v : CTy) (h : Mirrors c v) (ho : Ordinary v) : Mirrors (.ptr c) (.ptr v)
  | ref (c : Cls) (v : CTy) (h : Mirrors c v) (hv : c ≠ .void) : Mirrors (.ptr c) (.ref v)
  | arr (n : Int) (c : Cls) (v : CTy) (hn : 0 ≤ n) (h : Mirrors c v) : Mirrors (.arr n c) (.arr (some n) v)
  | incomplete (c : Cls) (v : CTy) (h : Mirrors c v) (hv : c ≠ .void) : Mirrors (.ptr c) (.arr (some (-1)) v)
  | refVoid : Mirrors (.prim c%"c_void_p") (.ref (.base c%"void"))
  | incompleteVoid : Mirrors (.prim c%"c_void_p") (.arr (some (-1)) (.base c%"void"))
  | fnptr (std : Bool) (ret : Cls) (args : List Cls) (v : CTy) (cs : List (Option Str × CTy)) (hr : Mirrors ret v)
      (ha : MirrorsArgs args cs) : Mirrors (.fn std ret args) (.ptr (.fn cs v))
/-- The arguments in order. -/
inductive MirrorsArgs : List Cls → List (Option Str × CTy) → Prop
  | nil : MirrorsArgs [] []
  | cons (c : Cls) (n : Option Str) (v : CTy) (cls : List Cls) (cs : List (Option Str × CTy)) (h : Mirrors c v)
      (hs : MirrorsArgs cls cs) : MirrorsArgs (c :: cls) ((n, v) :: cs)
end

end

/-- No two neighbouring array modifiers. -/
def NoAdj (l : List CMod) : Prop := ∀ a b x y, l ≠ x ++ .arr a :: .arr b :: y

/-- The shapes of modifier lists that `_get_type` handles: a function is followed by exactly one pointer
(with the calling convention in front of it, if any), and conventions occur nowhere else.  `__stdcall`
exists on Windows (`win32`) only. -/
def FnPtrs (win32 : Bool) : List CMod → Prop
  | [] => True
  | .arr _ :: ms => FnPtrs win32 ms
  | .sym s :: ms => (s = c%"*" ∨ s = c%"&") ∧ FnPtrs win32 ms
  | .fn _ :: .sym s :: ms =>
    (s = c%"*" ∧ FnPtrs win32 ms ∧ ms.head? ≠ some (.sym c%"*")) ∨
    (((s = c%"__stdcall" ∧ win32 = true) ∨ s = c%"__cdecl") ∧ FnPtrs win32 ms ∧ ms.head? = some (.sym c%"*"))
  | .fn _ :: _ => False

/-- Who an array bracket belongs to: types that may be used any number of times (typedefs, parameters of
function pointers), the type of variable or function number `k`, or a member of a struct or union. -/
inductive Owner where
  | shared
  | top (k : Nat)
  | member (union : Bool) (tag : Str) (j : Nat)
  deriving DecidableEq

section
variable (types : Dict Str Str) (known : Bool → Str → Prop)

/-- C types ctypes has a class for: known base types, pointers, references, arrays of known length of
something that has a size, incomplete arrays, pointers to functions without `void` parameters. -/
inductive Buildable : CTy → Prop
  | prim (s p : Str) (h : dget types s = some p) : Buildable (.base s)
  | void : Buildable (.base c%"void")
  | enum (tag : Str) : Buildable (.base (c%"enum " ++ tag))
  | struct (tag : Str) (h : known false tag) : Buildable (.base (c%"struct " ++ tag))
  | union (tag : Str) (h : known true tag) : Buildable (.base (c%"union " ++ tag))
  | ptr (v : CTy) (h : Buildable v) : Buildable (.ptr v)
  | ref (v : CTy) (h : Buildable v) : Buildable (.ref v)
  | arr (n : Int) (v : CTy) (hn : 0 ≤ n) (hv : v ≠ .base c%"void") (h : Buildable v) : Buildable (.arr (some n) v)
  | incomplete (v : CTy) (h : Buildable v) : Buildable (.arr (some (-1)) v)
  | fnptr (cs : List (Option Str × CTy)) (v : CTy) (h : Buildable v) (hv : ∀ x ∈ cs, x.2 ≠ .base c%"void")
      (hc : ∀ x ∈ cs, Buildable x.2) : Buildable (.ptr (.fn cs v))

end

/-- The identities of the array modifiers. -/
def idsOf (l : List CMod) : List Int :=
  l.filterMap fun m => match m with
    | .arr [some i] => some i
    | _ => none

/-- Every array modifier holds one identity. -/
def Refs (l : List CMod) : Prop := ∀ d, .arr d ∈ l → ∃ i, d = [some i]

/-- The lists hold what was declared. -/
def Clean (dim : Int → Option Int) (h : Int → List (Option Int)) (l : List CMod) : Prop :=
  ∀ i ∈ idsOf l, h i = [dim i]

/-- Conditions on a type whose array brackets belong to `o`: it is a `Type` object; its array lists are
distinct objects; functions inside are pointed to once; array brackets do not meet those of a typedef;
types that are used several times have no neighbouring brackets at all. -/
structure TyGood (e : CtEnv) (own : Int → Owner) (o : Owner) (t : CType) : Prop where
  quals : QualsMatch t
  base : ∀ q ∈ t.quals.head?, q ≠ none
  refs : Refs t.mods
  owned : ∀ i ∈ idsOf t.mods, own i = o
  nodup : (idsOf t.mods).Nodup
  res : ∀ b, Resolves e.cfg e.tm t b → FnPtrs e.cfg.win32 b.mods ∧ (o = .shared → NoAdj b.mods) ∧
    ∀ pre, b.mods = pre ++ t.mods → NoAdj (pre ++ t.mods.take 1)

/-- The same, with all parameter types inside. -/
def TyOk (e : CtEnv) (own : Int → Owner) (o : Owner) (t : CType) : Prop :=
  TyGood e own o t ∧ ∀ ps p u, .fn ps ∈ t.mods → p ∈ ps → Inside u p.2.1 → TyGood e own .shared u

/-- Conditions on the definitions. -/
structure CtWorld (e : CtEnv) (own : Int → Owner) : Prop where
  typedefs : ∀ s pt u, dget e.tm s = some pt → Inside u pt → TyGood e own .shared u
  tags : ∀ union tag pt, dget e.tm (compWord union ++ ' ' :: tag) = some pt →
    pt.mods.head? = some (.sym tag) ∧ dhas (e.defs (compKind union)) tag = true
  members : ∀ union tag ms pack (j : Nat) m, dget (e.defs (compKind union)) tag = some (.compound ms pack) →
    ms[j]? = some m → TyOk e own (.member union tag j) m.type

/-- `struct X` / `union X` entries of the type table lead to the tag `X`, which is defined. -/
def TagsOk (e : CtEnv) : Prop :=
  ∀ union tag pt, dget e.tm (compWord union ++ ' ' :: tag) = some pt →
    pt.mods.head? = some (.sym tag) ∧ dhas (e.defs (compKind union)) tag = true

/-- Parameter types are nested to a finite depth: no typedef is a parameter type of itself. -/
inductive FiniteParams (e : CtEnv) : CType → Prop
  | mk (t : CType) (hq : QualsMatch t) (h : ∀ r ps p, Resolves e.cfg e.tm t r → .fn ps ∈ r.mods → p ∈ ps → FiniteParams e p.2.1) :
      FiniteParams e t

/-- The tags that have an entry in the type table. -/
def KnownTag (e : CtEnv) (u : Bool) (tag : Str) : Prop := ∃ pt, dget e.tm (compWord u ++ ' ' :: tag) = some pt

/-- Conditions on the definitions under which every struct and union can be built. -/
structure CtBuild (e : CtEnv) (dim : Int → Option Int) : Prop where
  comps : ∀ u tag d, dget (e.defs (compKind u)) tag = some d → ∃ ms pack, d = .compound ms pack
  members : ∀ u tag ms pack m, dget (e.defs (compKind u)) tag = some (.compound ms pack) → m ∈ ms →
    ∃ v, Means e.cfg e.tm dim m.type v ∧ Buildable e.types (KnownTag e) v ∧ v ≠ .base c%"void" ∧
      (m.name = none → ∃ u' tag', v = .base (compWord u' ++ ' ' :: tag')) ∧
      ∀ n k, m.name = some n → n ≠ c%"anon_member" ++ natDigits k
  ends : ∀ s pt, dget e.tm s = some pt → ∀ q ∈ pt.quals.getLast?, q ≠ none
  noTag : ∀ u tag, dget e.types (compWord u ++ ' ' :: tag) = none

end Pyclib.Spec
