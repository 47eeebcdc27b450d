import Verif.Spec.Layout
import Verif.Model.Fill
/-
Specification: initialisers of C.  The parts of an object are given by paths of indices and member numbers; an integer has the value
of the initialiser for its path, converted to its type, or zero if there is none.
-/
namespace Pyclib.Spec
open Pyclib

/-- An initialiser: `5` or `{…}`. -/
inductive FInit where
  | num (i : Int)
  | list (l : List FInit)

/-- The number an initialiser gives for a path; zero if nothing is given. -/
def FInit.val : FInit → List Nat → Int
  | .num i, [] => i
  | .list l, i :: p => match l[i]? with
    | some x => x.val p
    | none => 0
  | _, _ => 0

mutual
/-- The initialiser in Python: braces become tuples. -/
def FInit.py : FInit → PyInit
  | .num i => .int i
  | .list l => .tup (pyList l)
/-- All initialisers of a list. -/
def pyList : List FInit → List PyInit
  | [] => []
  | x :: l => x.py :: pyList l
end

/-- The type `T a[d1]…[dn]` with elements of type `v`. -/
def arrTy (v : CTy) : List Nat → CTy
  | [] => v
  | d :: ds => .arr (some (d : Int)) (arrTy v ds)

/-- `r` is in the range of an integer type of `sz` bytes. -/
def InRange (sz : Nat) (sg : Bool) (r : Int) : Prop :=
  if sg then -(256 ^ sz : Int) ≤ 2 * r ∧ 2 * r < 256 ^ sz else 0 ≤ r ∧ r < 256 ^ sz

/-- `i` converted to an integer type of `sz` bytes is `r` (C11 6.3.1.3; for signed types as all compilers do it). -/
def Converts (sz : Nat) (sg : Bool) (i r : Int) : Prop := (256 ^ sz : Int) ∣ i - r ∧ InRange sz sg r

/-- The number the bytes stand for, the first byte being the lowest. -/
def bytesVal (bs : List Nat) : Int := (bs.zipIdx.map (fun x => (x.1 : Int) * 256 ^ x.2)).sum

/-- The bytes are those of the integer `r` in two's complement, little-endian. -/
def StoredInt (sz : Nat) (sg : Bool) (bs : List Nat) (r : Int) : Prop :=
  bs.length = sz ∧ (∀ b ∈ bs, b < 256) ∧ (256 ^ sz : Int) ∣ bytesVal bs - r ∧ InRange sz sg r

/-- The bytes `o`, `o + 1`, …, `o + n - 1` of an object. -/
def bytesAt (b : List Nat) (o n : Nat) : List Nat := (b.drop o).take n

section
variable (cfg : Cfg) (s : Store DefVal) (abi : Abi) (sgn : Str → Option Bool)

/-- Integer types with size and signedness; `sgn` gives the signedness of the simple ones. -/
inductive IntTy : CTy → Nat → Bool → Prop
  | simple (b : Str) (sz al : Nat) (sg : Bool) (h : abi.simple b = some (sz, al)) (hs : sgn b = some sg) : IntTy (.base b) sz sg
  | enum (tag : Str) : IntTy (.base (c%"enum " ++ tag)) abi.enum.1 true

/-- `PartAt v p o w`: in an object of type `v` the path `p` leads to a part of type `w` at offset `o`.  Of a union, only the first member
counts. -/
inductive PartAt : CTy → List Nat → Nat → CTy → Prop
  | here (v : CTy) : PartAt v [] 0 v
  | elem (n : Nat) (v : CTy) (i sz al : Nat) (p : List Nat) (o : Nat) (w : CTy) (hi : i < n) (hl : Layout cfg s abi false v sz al)
      (h : PartAt v p o w) : PartAt (.arr (some (n : Int)) v) (i :: p) (i * sz + o) w
  | member (u : Bool) (tag : Str) (ms : List Member) (pack : Option Nat) (l : List (Nat × Nat)) (os : List Nat) (sz al i oi : Nat) (m : Member)
      (v : CTy) (p : List Nat) (o : Nat) (w : CTy) (hd : dget (s.defs (compKind u)) tag = some (.compound ms pack))
      (hm : Members cfg s abi false ms l) (hp : CompPlaced pack l u os sz al) (hi : ms[i]? = some m) (ho : os[i]? = some oi)
      (hu : u = true → i = 0) (hv : CMeaning cfg s m.type v) (h : PartAt v p o w) : PartAt (.base (compWord u ++ ' ' :: tag)) (i :: p) (oi + o) w

mutual
/-- `Fits v x`: `x` is an initialiser for an object of type `v`, with numbers for integers only. -/
inductive Fits : CTy → FInit → Prop
  | num (v : CTy) (sz : Nat) (sg : Bool) (i : Int) (h : IntTy abi sgn v sz sg) : Fits v (.num i)
  | arr (n : Nat) (v : CTy) (l : List FInit) (hn : l.length ≤ n) (h : FitsAll v l) : Fits (.arr (some (n : Int)) v) (.list l)
  | comp (u : Bool) (tag : Str) (ms : List Member) (pack : Option Nat) (l : List FInit)
      (hd : dget (s.defs (compKind u)) tag = some (.compound ms pack)) (hu : u = true → l.length ≤ 1) (h : FitsMembers ms l) :
      Fits (.base (compWord u ++ ' ' :: tag)) (.list l)
/-- All elements. -/
inductive FitsAll : CTy → List FInit → Prop
  | nil (v : CTy) : FitsAll v []
  | cons (v : CTy) (x : FInit) (l : List FInit) (h : Fits v x) (hs : FitsAll v l) : FitsAll v (x :: l)
/-- Values for the first members. -/
inductive FitsMembers : List Member → List FInit → Prop
  | nil (ms : List Member) : FitsMembers ms []
  | cons (m : Member) (ms : List Member) (v : CTy) (x : FInit) (l : List FInit) (hv : CMeaning cfg s m.type v) (h : Fits v x)
      (hs : FitsMembers ms l) : FitsMembers (m :: ms) (x :: l)
end

end

/-- `Filled v x b`: the bytes `b` of an object of C type `v` and class `c` are those of the initialiser `x`.  Every integer in it has the value
of the initialiser converted to its type, for C and for Python. -/
def Filled (cfg : Cfg) (s : Store DefVal) (abi : Abi) (sgn : Str → Option Bool) (z : CtSizes) (classes : List CompCls) (v : CTy) (x : FInit) (c : Cls)
    (b : List Nat) : Prop :=
  (∀ sz al, Layout cfg s abi false v sz al → b.length = sz) ∧
  ∀ p o w wsz sg, PartAt cfg s abi v p o w → IntTy abi sgn w wsz sg → ∃ r, Converts wsz sg (x.val p) r ∧
    StoredInt wsz sg (bytesAt b o wsz) r ∧ ∃ K, ∀ k, K ≤ k → pyRead z classes k c b p = some r

/-- The classes of the integer types are integer classes with the same sign. -/
def SignMatch (types : Dict Str Str) (sgn : Str → Option Bool) : Prop :=
  ∀ b sg p, sgn b = some sg → dget types b = some p → dget intClasses p = some sg

end Pyclib.Spec
