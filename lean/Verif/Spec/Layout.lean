import Verif.Spec.Classes
import Verif.Model.Layout
/-
Specification: how a C compiler lays out types in memory (the rules common to all ABIs, for types without bit-fields): each member
of a struct is at the first place after the previous one that suits its alignment, limited by the packing in effect.
-/
namespace Pyclib.Spec
open Pyclib

/-- `r` is the least multiple of `a` from `n` on. -/
def LeastMul (a n r : Nat) : Prop := a ∣ r ∧ n ≤ r ∧ ∀ r', a ∣ r' → n ≤ r' → r ≤ r'

/-- `m` is the maximum of the numbers and `d`. -/
def MaxOf (d : Nat) (l : List Nat) (m : Nat) : Prop := d ≤ m ∧ (∀ x ∈ l, x ≤ m) ∧ (m = d ∨ m ∈ l)

/-- The alignment of a member under `#pragma pack(p)`; 0 means no packing. -/
def packed (pack : Option Nat) (al : Nat) : Nat :=
  match pack with
  | some (p + 1) => min (p + 1) al
  | _ => al

/-- `Placed e l os e'`: members with the sizes and alignments `l`, after `e` bytes, are at the offsets `os` and end at `e'`. -/
inductive Placed (pack : Option Nat) : Nat → List (Nat × Nat) → List Nat → Nat → Prop
  | nil (e : Nat) : Placed pack e [] [] e
  | cons (e sz al o e' : Nat) (l : List (Nat × Nat)) (os : List Nat) (h : LeastMul (packed pack al) e o) (hs : Placed pack (o + sz) l os e') :
      Placed pack e ((sz, al) :: l) (o :: os) e'

/-- Offsets, size and alignment of a struct (`u = false`) or union. -/
inductive CompPlaced (pack : Option Nat) (l : List (Nat × Nat)) : Bool → List Nat → Nat → Nat → Prop
  | struct (os : List Nat) (e sz al : Nat) (h : Placed pack 0 l os e) (ha : MaxOf 1 (l.map (fun x => packed pack x.2)) al)
      (hz : LeastMul al e sz) : CompPlaced pack l false os sz al
  | union (os : List Nat) (e sz al : Nat) (ho : os.length = l.length ∧ ∀ o ∈ os, o = 0) (he : MaxOf 0 (l.map (·.1)) e)
      (ha : MaxOf 1 (l.map (fun x => packed pack x.2)) al) (hz : LeastMul al e sz) : CompPlaced pack l true os sz al

/-- Size and alignment of the simple types (by name), enumerations and pointers. -/
structure Abi where
  simple : Str → Option (Nat × Nat)
  enum : Nat × Nat
  ptr : Nat × Nat

section
variable (cfg : Cfg) (s : Store DefVal) (abi : Abi) (flex : Bool)

mutual
/-- `Layout v sz al`: size and alignment of the C type `v`, declared with the definitions `s`.  With `flex`, arrays without
length are allowed (as the last member of a struct). -/
inductive Layout : CTy → Nat → Nat → Prop
  | simple (b : Str) (sz al : Nat) (h : abi.simple b = some (sz, al)) : Layout (.base b) sz al
  | enum (tag : Str) : Layout (.base (c%"enum " ++ tag)) abi.enum.1 abi.enum.2
  | ptr (v : CTy) : Layout (.ptr v) abi.ptr.1 abi.ptr.2
  | ref (v : CTy) : Layout (.ref v) abi.ptr.1 abi.ptr.2
  | arr (n : Nat) (v : CTy) (sz al : Nat) (h : Layout v sz al) : Layout (.arr (some (n : Int)) v) (n * sz) al
  | open (v : CTy) (sz al : Nat) (hf : flex = true) (h : Layout v sz al) : Layout (.arr (some (-1)) v) 0 al
  | comp (u : Bool) (tag : Str) (ms : List Member) (pack : Option Nat) (l : List (Nat × Nat)) (os : List Nat) (sz al : Nat)
      (h : dget (s.defs (compKind u)) tag = some (.compound ms pack)) (hm : Members ms l) (hp : CompPlaced pack l u os sz al) :
      Layout (.base (compWord u ++ ' ' :: tag)) sz al
/-- Sizes and alignments of members: no bit-fields (and no default values, which C does not have). -/
inductive Members : List Member → List (Nat × Nat) → Prop
  | nil : Members [] []
  | cons (m : Member) (ms : List Member) (v : CTy) (sz al : Nat) (l : List (Nat × Nat)) (hb : m.bit = none) (hd : m.val = .none)
      (hv : CMeaning cfg s m.type v) (h : Layout v sz al) (hs : Members ms l) : Members (m :: ms) ((sz, al) :: l)
end

/-- Offsets of the members of a struct or union of the header. -/
def Offsets (u : Bool) (tag : Str) (os : List Nat) : Prop :=
  ∃ ms pack l sz al, dget (s.defs (compKind u)) tag = some (.compound ms pack) ∧ Members cfg s abi flex ms l ∧ CompPlaced pack l u os sz al

end

/-- The simple ctypes classes have the sizes of the C types they stand for; class names are not those of tags. -/
structure AbiMatch (abi : Abi) (types : Dict Str Str) (z : CtSizes) : Prop where
  simple : ∀ b r, abi.simple b = some r → 0 < r.2 ∧ b ≠ c%"void" ∧ ∃ p, dget types b = some p ∧ z.prims p = some r
  enums : ∀ tag, dget types (c%"enum " ++ tag) = none
  enum : 0 < abi.enum.2 ∧ z.prims c%"c_int" = some abi.enum
  ptr : 0 < abi.ptr.2 ∧ z.ptr = abi.ptr ∧ ∀ p ∈ [c%"c_char_p", c%"c_wchar_p", c%"c_void_p"], z.prims p = some abi.ptr

end Pyclib.Spec
