import Verif.Spec.Calls
import Verif.Model.CtLib
/-
Specification for a library as a whole: what looking up a name gives, in terms of what the headers declare.
-/
namespace Pyclib.Spec
open Pyclib

section
variable (cfg : Cfg) (types : Dict Str Str) (s : Store DefVal) (exports : Str → Bool)

/-- Definitions that can be used from Python: functions without calling convention whose types have
classes, and typedefs that have a class.  (No condition on the other kinds.) -/
def Usable : Kind → Str → Prop
  | .functions, f => ∀ r ps q, dget (s.defs .functions) f = some (.func (.func r ps q)) →
      NoConv r ∧ (∃ u, AskOk cfg types s r u) ∧ ∃ cs, ParamsOk cfg types s ps cs
  | .types, n => ∀ t, IsName cfg n → dget (s.defs .types) n = some (.type t) → ∃ v, AskOk cfg types s t v
  | _, _ => True

/-- `Gives structs k n res`: with the struct and union classes `structs`, `res` is the right outcome of
`lib(k, n)`. -/
inductive Gives (structs : Dict Str Nat) : Kind → Str → Except PyErr (LObj CtObj) → Prop
  | kind (k : Kind) (n : Str) (hk : k ∉ lookKinds) : Gives structs k n (.error .keyError)
  | absent (k : Kind) (n : Str) (hk : k ∈ lookKinds) (h : dhas (s.defs k) n = false) : Gives structs k n (.error .nameError)
  | value (n : Str) (v : PVal) (h : dget (s.defs .values) n = some (.value v)) : Gives structs .values n (.ok (.val v))
  | enum (n : Str) (d : Dict Str PVal) (h : dget (s.defs .enums) n = some (.enum d)) : Gives structs .enums n (.ok (.enum d))
  | hidden (f : Str) (h : dhas (s.defs .functions) f = true) (hx : exports f = false) : Gives structs .functions f (.error .keyError)
  | func (f : Str) (r : CType) (ps : List Param) (q : List Qual) (u : CTy) (cs : List (Option Str × CTy)) (g : CFunc)
      (h : dget (s.defs .functions) f = some (.func (.func r ps q))) (hx : exports f = true)
      (hr : CMeaning cfg s r u) (hps : ParamsOk cfg types s ps cs) (hn : g.params.map (·.1) = cs.map (·.1))
      (hmr : Mirrors types structs g.resType u) (hma : MirrorsArgs types structs g.argTypes cs) :
      Gives structs .functions f (.ok (.obj (.func f g)))
  | typedef (n : Str) (t : CType) (v : CTy) (c : Cls) (hi : IsName cfg n) (h : dget (s.defs .types) n = some (.type t))
      (hv : CMeaning cfg s t v) (hm : Mirrors types structs c v) : Gives structs .types n (.ok (.obj (.cls c)))
  | tagName (n : Str) (hi : ¬ IsName cfg n) (h : dhas (s.defs .types) n = true) : Gives structs .types n (.error .definitionError)
  | comp (u : Bool) (tag : Str) (id : Nat) (h : DefinedTag s u tag) (hid : dget structs tag = some id) :
      Gives structs (compKind u) tag (.ok (.obj (.cls (.comp id))))

/-- `GivesAttr structs n ks res`: `res` is the right outcome of `lib.n` with the kinds `ks` left: the first kind
that defines the name counts, unless its object is `None`. -/
inductive GivesAttr (structs : Dict Str Nat) (n : Str) : List Kind → Except PyErr (LObj CtObj) → Prop
  | nil : GivesAttr structs n [] (.error .nameError)
  | skip (k : Kind) (ks : List Kind) (res : Except PyErr (LObj CtObj)) (h : dhas (s.defs k) n = false)
      (hr : GivesAttr structs n ks res) : GivesAttr structs n (k :: ks) res
  | none (k : Kind) (ks : List Kind) (o : LObj CtObj) (res : Except PyErr (LObj CtObj)) (h : dhas (s.defs k) n = true)
      (hg : Gives cfg types s exports structs k n (.ok o)) (ho : o = .val .none ∨ o = .obj (.cls .void))
      (hr : GivesAttr structs n ks res) : GivesAttr structs n (k :: ks) res
  | take (k : Kind) (ks : List Kind) (res : Except PyErr (LObj CtObj)) (h : dhas (s.defs k) n = true)
      (hg : Gives cfg types s exports structs k n res) (ho : res ≠ .ok (.val .none) ∧ res ≠ .ok (.obj (.cls .void))) :
      GivesAttr structs n (k :: ks) res

/-- The kinds of definitions in the documented order of `lib.name` (c_library.py, docstring of `CLibrary`). -/
def attrOrder : List Kind := [.values, .functions, .types, .structs, .unions, .enums]

/-- The right outcome of a lookup. -/
def LookRight (structs : Dict Str Nat) : Look → Except PyErr (LObj CtObj) → Prop
  | .call k n, res => Gives cfg types s exports structs k n res
  | .attr n, res => GivesAttr cfg types s exports structs n attrOrder res

/-- The lookups considered: usable definitions, and no typedef name where a tag is expected. -/
def FairLook : Look → Prop
  | .call k n => Usable cfg types s k n ∧
      (k = .structs ∨ k = .unions ∨ k = .enums → dhas (s.defs k) n = false → dhas (s.defs .types) n = false)
  | .attr n => ∀ k ∈ attrOrder, Usable cfg types s k n

end

end Pyclib.Spec
