import Verif.Spec.Library
import Verif.Model.Session
/-
Specification for the use of a library: what calling a function of the header must do, in terms of the
declared C types.
-/
namespace Pyclib.Spec
open Pyclib

section
variable {A : Type}

/-- What the caller gives for parameter number `i` of a function with parameters `cs`: by keyword, else by position. -/
def argFor (cs : List (Option Str × CTy)) (args : List (PyArg A)) (kws : List (Str × PyArg A)) (i : Nat) : Option (PyArg A) :=
  match (cs[i]?.bind (·.1)).bind (dget kws) with
  | some w => some w
  | none => args[i]?

/-- Pointers whose target the library can make: one or two levels of pointers to a simple type, struct or union. -/
def OutPtr (v : CTy) : Prop := ∃ b, v = .ptr (.base b) ∨ v = .ptr (.ptr (.base b))

section
variable (types : Dict Str Str) (structs : Dict Str Nat)

/-- The argument passed for a parameter of C type `v`: the object given; an object whose class mirrors `v` for `None`, if
`v` is not a plain value; a new object if nothing is given and `v` is a pointer that can be made. -/
inductive ArgRight (v : CTy) : Option (PyArg A) → Passed A → Prop
  | obj (a : A) : ArgRight v (some (.obj a)) (.obj a)
  | nul (w : PyArg A) (c : Cls) (hw : w = .none ∨ w = .null) (hv : ∀ b, v ≠ .base b) (h : Mirrors types structs c v) :
      ArgRight v (some w) (.nul c)
  | auto (c : Cls) (hv : OutPtr v) (h : AutoOk types structs c v) : ArgRight v none (.auto c)

/-- What the caller gives cannot be passed: `None` for a plain value, or nothing for something that cannot be
made. -/
inductive Unfit (v : CTy) : Option (PyArg A) → Prop
  | null (w : PyArg A) (b : Str) (hw : w = .none ∨ w = .null) (hv : v = .base b) : Unfit v (some w)
  | missing (hv : ¬ OutPtr v) : Unfit v none

/-- The right outcome of a call with C parameters `cs`: the C function is called with the right argument for each
parameter, and the list of generated ones is known; or an argument is unfit and `TypeError` is raised. -/
inductive CallRight (cs : List (Option Str × CTy)) (args : List (PyArg A)) (kws : List (Str × PyArg A)) : CallOut A → Prop
  | called (as : List (Passed A)) (gs : List Nat) (hlen : as.length = cs.length)
      (h : ∀ (i : Nat) name v, cs[i]? = some (name, v) → ∃ a, as[i]? = some a ∧ ArgRight types structs v (argFor cs args kws i) a)
      (ho : gs.Pairwise (· < ·)) (hgs : ∀ i, i ∈ gs ↔ i < cs.length ∧ argFor cs args kws i = none) :
      CallRight cs args kws (.called as gs)
  | unfit (i : Nat) (name : Option Str) (v : CTy) (hi : cs[i]? = some (name, v)) (h : Unfit v (argFor cs args kws i)) :
      CallRight cs args kws (.raised .typeError)

/-- The right outcome of asking for an argument type by name or position (not negative). -/
inductive ArgTypeRight (cs : List (Option Str × CTy)) : PyKey → Except PyErr Cls → Prop
  | name (i : Nat) (k : Str) (v : CTy) (c : Cls) (hi : cs[i]? = some (some k, v)) (h : Mirrors types structs c v) :
      ArgTypeRight cs (.str k) (.ok c)
  | index (i : Nat) (k : Option Str) (v : CTy) (c : Cls) (hi : cs[i]? = some (k, v)) (h : Mirrors types structs c v) :
      ArgTypeRight cs (.int i) (.ok c)
  | unknown (k : Str) (h : ∀ x ∈ cs, x.1 ≠ some k) : ArgTypeRight cs (.str k) (.error .keyError)
  | range (i : Nat) (h : cs.length ≤ i) : ArgTypeRight cs (.int i) (.error .indexError)

end

/-- `None` may be given for the parameter any number of times: its declared type has no array brackets, and the
typedefs in it have no neighbouring ones. -/
def AskAgain (cfg : Cfg) (s : Store DefVal) (t : CType) : Prop := (∀ d, .arr d ∉ t.mods) ∧ ShapesOk cfg s true t

section
variable (cfg : Cfg) (types : Dict Str Str) (s : Store DefVal) (exports : Str → Bool)

/-- The function `f` of the header, with C parameters `cs`. -/
def Declared (f : Str) (ps : List Param) (cs : List (Option Str × CTy)) : Prop :=
  (∃ r q, dget (s.defs .functions) f = some (.func (.func r ps q))) ∧ ParamsOk cfg types s ps cs

/-- Calls and questions considered: functions without default values, parameter names distinct, no value of the same name;
not too many arguments, keywords that exist, each once; `None` only for types that can be asked for repeatedly. -/
structure FairFn (f : Str) (ps : List Param) (cs : List (Option Str × CTy)) : Prop where
  decl : Declared cfg types s f ps cs
  usable : ∀ k ∈ attrOrder, Usable cfg types s k f
  values : dhas (s.defs .values) f = false
  plain : ∀ p ∈ ps, p.2.2 = none
  names : ∀ (i j : Nat) k v w, cs[i]? = some (some k, v) → cs[j]? = some (some k, w) → i = j

/-- The uses considered. -/
inductive FairUse : Use A → Prop
  | look (q : Look) (h : FairLook cfg types s q) : FairUse (.look q)
  | invoke (f : Str) (ps : List Param) (cs : List (Option Str × CTy)) (args : List (PyArg A)) (kws : List (Str × PyArg A))
      (hf : FairFn cfg types s f ps cs) (few : args.length ≤ cs.length) (keys : (kws.map (·.1)).Nodup)
      (known : ∀ k w, (k, w) ∈ kws → ∃ x ∈ cs, x.1 = some k) (again : ∀ p ∈ ps, AskAgain cfg s p.2.1 ∨
        ∀ (i : Nat) v w, cs[i]? = some (p.1, v) → argFor cs args kws i = some w → w ≠ .none ∧ w ≠ .null) : FairUse (.invoke f args kws)
  | argType (f : Str) (ps : List Param) (cs : List (Option Str × CTy)) (k : PyKey)
      (hf : FairFn cfg types s f ps cs) (hk : (∃ x, k = .str x) ∨ ∃ i : Nat, k = .int i)
      (again : ∀ p ∈ ps, AskAgain cfg s p.2.1) : FairUse (.argType f k)

/-- The right outcome of a use, with the struct and union classes `structs`. -/
inductive UseRight (structs : Dict Str Nat) : Use A → Seen A → Prop
  | look (q : Look) (r : Except PyErr (LObj CtObj)) (h : LookRight cfg types s exports structs q r) : UseRight structs (.look q) (.looked r)
  | hidden (f : Str) (args : List (PyArg A)) (kws : List (Str × PyArg A)) (h : exports f = false) :
      UseRight structs (.invoke f args kws) (.invoked (.raised .keyError))
  | invoke (f : Str) (ps : List Param) (cs : List (Option Str × CTy)) (args : List (PyArg A)) (kws : List (Str × PyArg A)) (o : CallOut A)
      (hx : exports f = true) (hd : Declared cfg types s f ps cs) (h : CallRight types structs cs args kws o) :
      UseRight structs (.invoke f args kws) (.invoked o)
  | hiddenType (f : Str) (k : PyKey) (h : exports f = false) : UseRight structs (.argType f k) (.typed (.error .keyError))
  | argType (f : Str) (ps : List Param) (cs : List (Option Str × CTy)) (k : PyKey) (r : Except PyErr Cls)
      (hx : exports f = true) (hd : Declared cfg types s f ps cs) (h : ArgTypeRight types structs cs k r) :
      UseRight structs (.argType f k) (.typed r)

end
end

end Pyclib.Spec
