import Verif.Spec.Number
import Verif.Model.Cast
/-
Specification: pointer casts.
-/
namespace Pyclib.Spec
open Pyclib

/-- The address an object stands for in a C cast to a pointer type: arrays are converted to the address of their first element, pointers point where
they point, `None` is the null pointer. -/
inductive Addresses : CastObj → Addr → Prop
  | null : Addresses .none .null
  | array (n : Int) (c : Cls) (b o : Nat) : Addresses (.arr n c b o) (.at b o)
  | pointer (c : Cls) (a : Addr) : Addresses (.ptr c a) a

section
variable (types : Dict Str Str) (structs : Dict Str Nat) (cfg : Cfg) (s : Store DefVal) (abi : Abi) (sgn : Str → Option Bool)

/-- Types that are not pointers: integers, structs, unions, arrays of a known length. -/
inductive NoPointer : CTy → Prop
  | int (v : CTy) (sz : Nat) (sg : Bool) (h : IntTy abi sgn v sz sg) : NoPointer v
  | struct (tag : Str) : NoPointer (.base (c%"struct " ++ tag))
  | union (tag : Str) : NoPointer (.base (c%"union " ++ tag))
  | arr (n : Nat) (v : CTy) : NoPointer (.arr (some (n : Int)) v)

/-- The outcome `res` of a cast of `obj` to the C type `v` is right.  `rd m p i path r` says that Python reads the number `r` at `p[i]` and the path, in
memory `m`: that must be the number that is in the bytes of the block pointed to, at the place where C has it. -/
structure CastRight (v : CTy) (obj : CastObj) (res : Except PyErr (Cls × Addr))
    (rd : Mem Bytes → Cls × Addr → Nat → List Nat → Int → Prop) : Prop where
  /-- Pointers: the address stays the same, the class is that of the type. -/
  pointer : ∀ w a, v = .ptr w → Addresses obj a → ∃ c, res = .ok (c, a) ∧ Mirrors types structs c v ∧
    (Pointed w → ∀ sz al b o, Layout cfg s abi false w sz al → a = .at b o → ∀ (m : Mem Bytes) i p o' w' wsz sg r, PartAt cfg s abi w p o' w' →
      IntTy abi sgn w' wsz sg → Holds wsz sg (m.cell b) (o + i * sz + o') r → rd m (c, a) i p r)
  /-- Other types raise. -/
  plain : ∀ a, NoPointer abi sgn v → Addresses obj a → res = .error .typeError

end

end Pyclib.Spec
