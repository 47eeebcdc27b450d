import Verif.Model.Decl
/-
Specification of declarations: C types, how C reads a declarator, what C type a recorded modifier list
denotes, values of enumerators.  Independent of `process_declarator`.
-/
namespace Pyclib.Spec
open Pyclib

/-- C types.  `n` in arrays is the value of the length expression (`-1` for `[]`), parameters carry
their names. -/
inductive CTy where
  | base (s : Str)
  | ptr (t : CTy)
  | ref (t : CTy)
  | arr (n : Option Int) (t : CTy)
  | fn (params : List (Option Str × CTy)) (ret : CTy)

/-- `n` pointers to `t`. -/
def ptrsTo : Nat → CTy → CTy
  | 0, t => t
  | n + 1, t => ptrsTo n (.ptr t)

/-- Array `n1` of array `n2` of ... of `t`. -/
def arrsOf : List (Option Int) → CTy → CTy
  | [], t => t
  | n :: ns, t => .arr n (arrsOf ns t)

mutual
/-- How C reads a declarator (ISO C 6.7.6): with base `t`, `* D` declares `D` with base pointer to `t`;
`D(params)[n1][n2]` declares `D` as function returning array `n1` of array `n2` of `t`; parentheses
only group.  `&` (C++) works like `*`.  Calling conventions do not take part. -/
def _root_.Pyclib.Decl.cty (ev : Str → Option Int) : Decl → CTy → CTy
  | .mk _ _ ptrs ref core hasArgs args arrays, t =>
    let t := ptrsTo ptrs.length t
    let t := if ref then .ref t else t
    let t := arrsOf (arrays.map ev) t
    let t := if hasArgs then .fn (args.ctys ev) t else t
    core.cty ev t
/-- The core of a declarator. -/
def _root_.Pyclib.Core.cty (ev : Str → Option Int) : Core → CTy → CTy
  | .name _, t => t
  | .abs, t => t
  | .center d, t => d.cty ev t
/-- Names and types of parameters. -/
def _root_.Pyclib.ArgList.ctys (ev : Str → Option Int) : ArgList → List (Option Str × CTy)
  | .nil => []
  | .cons _ tn d _ rest => (d.name, d.cty ev (.base tn)) :: rest.ctys ev
/-- The declared name. -/
def _root_.Pyclib.Decl.name : Decl → Option Str
  | .mk _ _ _ _ core _ _ _ => core.dname
/-- The name in the core. -/
def _root_.Pyclib.Core.dname : Core → Option Str
  | .name n => some n
  | .abs => none
  | .center d => d.name
end

mutual
/-- `DenMods t ms u`: the modifiers `ms`, applied to `t` as documented for `Type` (c_parser.py:73-116)
and read by the ctypes backend (backends/ctypes.py:218-251), make `u`.  Each modifier wraps what
precedes it; a run of consecutive array modifiers lists the dimensions in declaration order;
calling conventions do not count. -/
inductive DenMods : CTy → List CMod → CTy → Prop
  | nil (t : CTy) : DenMods t [] t
  | ptr (t : CTy) (ms : List CMod) (u : CTy) (h : DenMods (.ptr t) ms u) : DenMods t (.sym c%"*" :: ms) u
  | ref (t : CTy) (ms : List CMod) (u : CTy) (h : DenMods (.ref t) ms u) : DenMods t (.sym c%"&" :: ms) u
  | conv (c : Str) (t : CTy) (ms : List CMod) (u : CTy) (hc : c ≠ c%"*" ∧ c ≠ c%"&")
      (h : DenMods t ms u) : DenMods t (.sym c :: ms) u
  | arrs (n : Option Int) (ns : List (Option Int)) (t : CTy) (ms : List CMod) (u : CTy)
      (hm : ∀ l, ms.head? ≠ some (.arr l)) (h : DenMods (arrsOf (n :: ns) t) ms u) :
      DenMods t ((n :: ns).map (fun n => .arr [n]) ++ ms) u
  | fn (ps : List Param) (cs : List (Option Str × CTy)) (t : CTy) (ms : List CMod) (u : CTy)
      (hp : DenParams ps cs) (h : DenMods (.fn cs t) ms u) : DenMods t (.fn ps :: ms) u
/-- Parameters denote names and types. -/
inductive DenParams : List Param → List (Option Str × CTy) → Prop
  | nil : DenParams [] []
  | cons (n : Option Str) (t : CType) (v : Option Str) (ps : List Param) (u : CTy)
      (cs : List (Option Str × CTy)) (h : DenMods (.base t.spec) t.mods u) (hs : DenParams ps cs) :
      DenParams ((n, t, v) :: ps) ((n, u) :: cs)
end

/-- The C type a `Type` denotes. -/
def Denotes (t : CType) (u : CTy) : Prop := DenMods (.base t.spec) t.mods u

mutual
/-- Calling conventions are real ones, and one in front of a parenthesis is followed by a parameter
list, an array or comes with a pointer (otherwise `process_declarator` raises `TypeError`). -/
def _root_.Pyclib.Decl.ConvOk : Decl → Prop
  | .mk _ conv ptrs ref core hasArgs args arrays =>
    (∀ c, conv = some c → c = c%"__cdecl" ∨ c = c%"__stdcall") ∧
    (conv = none ∨ ptrs ≠ [] ∨ arrays ≠ [] ∨ hasArgs = true ∨ ref = true ∨ core.isCenter = false) ∧
    core.ConvOk ∧ (hasArgs = true → args.ConvOk)
/-- The same inside the core. -/
def _root_.Pyclib.Core.ConvOk : Core → Prop
  | .name _ | .abs => True
  | .center d => d.ConvOk
/-- The same for every parameter. -/
def _root_.Pyclib.ArgList.ConvOk : ArgList → Prop
  | .nil => True
  | .cons _ _ d _ rest => d.ConvOk ∧ rest.ConvOk
/-- A declarator in parentheses. -/
def _root_.Pyclib.Core.isCenter : Core → Bool
  | .name _ | .abs => false
  | .center _ => true
end

mutual
/-- The first thing the declarator adds to its base type is an array. -/
def _root_.Pyclib.Decl.startsArr : Decl → Bool
  | .mk _ conv ptrs ref core hasArgs _ arrays =>
    conv.isNone && ptrs.isEmpty && (!arrays.isEmpty || (!hasArgs && !ref && core.startsArr))
/-- The same for the core. -/
def _root_.Pyclib.Core.startsArr : Core → Bool
  | .name _ | .abs => false
  | .center d => d.startsArr
end

mutual
/-- No array brackets directly around a parenthesised array (`(x[2])[3]`), and no reference to an
array or function (C++). -/
def _root_.Pyclib.Decl.ArrOk : Decl → Prop
  | .mk _ _ _ ref core hasArgs args arrays =>
    (arrays ≠ [] → hasArgs = false → core.startsArr = false) ∧
    (ref = true → hasArgs = false ∧ arrays = []) ∧ core.ArrOk ∧ (hasArgs = true → args.ArrOk)
/-- The same inside the core. -/
def _root_.Pyclib.Core.ArrOk : Core → Prop
  | .name _ | .abs => True
  | .center d => d.ArrOk
/-- The same for every parameter. -/
def _root_.Pyclib.ArgList.ArrOk : ArgList → Prop
  | .nil => True
  | .cons _ _ d _ rest => d.ArrOk ∧ rest.ArrOk
end

/-- The outermost derivation of a C type is a function. -/
def CTy.isFn : CTy → Bool
  | .fn _ _ => true
  | _ => false

/-- Values of enumerators in C: the explicit value, or one more than the previous one (ISO C 6.7.2.2);
`prev` is the value before the first. -/
def enumVals : Int → List (Str × Option Int) → List (Str × Int)
  | _, [] => []
  | prev, (n, v) :: r =>
    let x := v.getD (prev + 1)
    (n, x) :: enumVals x r

/-- The explicit expressions of an enumerator list evaluate to the given integers, each one with the
preceding enumerators recorded in the table of values. -/
def EvalsTo (ev : EvalExpr) : Dict Str DefVal → Int → List (Str × Option Str) → List (Str × Option Int) → Prop
  | _, _, [], [] => True
  | tbl, prev, (n, e) :: ms, (n', v) :: vs =>
    n = n' ∧
    (match e, v with
      | none, none => True
      | some e, some v => ev tbl e = .int v
      | _, _ => False) ∧
    EvalsTo ev (dset tbl n (.value (.int (v.getD (prev + 1))))) (v.getD (prev + 1)) ms vs
  | _, _, _, _ => False

/-- Two lists of the same length, related position by position. -/
inductive All2 {α β : Type} (R : α → β → Prop) : List α → List β → Prop
  | nil : All2 R [] []
  | cons (a : α) (b : β) (as : List α) (bs : List β) (h : R a b) (hs : All2 R as bs) :
      All2 R (a :: as) (b :: bs)

/-- A struct member as C declares it: its type specifier, declarator (none for an unnamed member) and
bit width. -/
structure CMember where
  tn : Str
  decl : Option Decl
  bit : Option Str

/-- The members declared by a struct body, in order: one per declarator. -/
def cmembers (ms : List MemberDecl) : List CMember :=
  ms.flatMap fun m => match m.decls with
    | [] => [⟨m.tn, none, m.bit⟩]
    | ds => ds.map fun d => ⟨m.tn, some d, m.bit⟩

/-- A recorded member describes a declared one: name, type, bit width. -/
def MemberIs (ev : Str → Option Int) (c : CMember) (m : Member) : Prop :=
  (m.bit = none ↔ c.bit = none) ∧
  (∀ k : Nat, c.bit = some (natDigits k) → m.bit = some (k : Int)) ∧
  match c.decl with
  | some d => m.name = d.name ∧ Denotes m.type (d.cty ev (.base c.tn))
  | none => m.name = none

/-- Every declarator of the body is one `process_declarator` reads correctly. -/
def BodyOk (ms : List MemberDecl) : Prop := ∀ m ∈ ms, ∀ d ∈ m.decls, d.ConvOk ∧ d.ArrOk

mutual
/-- The innermost parentheses hold a calling convention and nothing else but the name, as in
`int (__stdcall f)(int)`. -/
def _root_.Pyclib.Decl.endsConv : Decl → Bool
  | .mk _ conv ptrs ref core hasArgs _ arrays =>
    core.endsConv (conv.isSome && ptrs.isEmpty && arrays.isEmpty && !hasArgs && !ref)
/-- The same for the core of a declarator. -/
def _root_.Pyclib.Core.endsConv : Core → Bool → Bool
  | .name _, b => b
  | .abs, b => b
  | .center d, _ => d.endsConv
end

end Pyclib.Spec
