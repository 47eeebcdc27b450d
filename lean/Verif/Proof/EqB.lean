import Verif.Model.Decl
/-! Equality tests for recorded types, used to evaluate examples. -/
namespace Pyclib

mutual
/-- The same modifiers. -/
def eqMods : List CMod → List CMod → Bool
  | [], [] => true
  | m :: ms, n :: ns => eqMod m n && eqMods ms ns
  | _, _ => false
/-- The same modifier. -/
def eqMod : CMod → CMod → Bool
  | .sym a, .sym b => decide (a = b)
  | .arr a, .arr b => decide (a = b)
  | .fn a, .fn b => eqParams a b
  | _, _ => false
/-- The same parameters. -/
def eqParams : List Param → List Param → Bool
  | [], [] => true
  | (n, ⟨s, ms, q⟩, d) :: ps, (n', ⟨s', ms', q'⟩, d') :: ps' =>
    decide (n = n') && decide (s = s') && decide (q = q') && decide (d = d') && eqMods ms ms' && eqParams ps ps'
  | _, _ => false
end

mutual
theorem eqMods_ok : ∀ a b : List CMod, eqMods a b = true → a = b
  | [], [], _ => rfl
  | m :: ms, n :: ns, h => by
    simp only [eqMods, Bool.and_eq_true] at h
    rw [eqMod_ok m n h.1, eqMods_ok ms ns h.2]
  | [], _ :: _, h => by simp [eqMods] at h
  | _ :: _, [], h => by simp [eqMods] at h
theorem eqMod_ok : ∀ a b : CMod, eqMod a b = true → a = b
  | .sym a, .sym b, h => by simp only [eqMod, decide_eq_true_eq] at h; rw [h]
  | .arr a, .arr b, h => by simp only [eqMod, decide_eq_true_eq] at h; rw [h]
  | .fn a, .fn b, h => by simp only [eqMod] at h; rw [eqParams_ok a b h]
  | .sym _, .arr _, h => by simp [eqMod] at h
  | .sym _, .fn _, h => by simp [eqMod] at h
  | .arr _, .sym _, h => by simp [eqMod] at h
  | .arr _, .fn _, h => by simp [eqMod] at h
  | .fn _, .sym _, h => by simp [eqMod] at h
  | .fn _, .arr _, h => by simp [eqMod] at h
theorem eqParams_ok : ∀ a b : List Param, eqParams a b = true → a = b
  | [], [], _ => rfl
  | (n, ⟨s, ms, q⟩, d) :: ps, (n', ⟨s', ms', q'⟩, d') :: ps', h => by
    simp only [eqParams, Bool.and_eq_true, decide_eq_true_eq] at h
    obtain ⟨⟨⟨⟨⟨rfl, rfl⟩, rfl⟩, rfl⟩, h1⟩, h2⟩ := h
    rw [eqMods_ok ms ms' h1, eqParams_ok ps ps' h2]
  | [], _ :: _, h => by simp [eqParams] at h
  | _ :: _, [], h => by simp [eqParams] at h
end

/-- The same type. -/
def eqType (a b : CType) : Bool := decide (a.spec = b.spec) && eqMods a.mods b.mods && decide (a.quals = b.quals)

theorem eqType_ok {a b : CType} (h : eqType a b = true) : a = b := by
  obtain ⟨s, m, q⟩ := a
  obtain ⟨s', m', q'⟩ := b
  simp only [eqType, Bool.and_eq_true, decide_eq_true_eq] at h
  obtain ⟨⟨rfl, h⟩, rfl⟩ := h
  rw [eqMods_ok _ _ h]

/-- The same list, with `eq` for the elements. -/
def eqList {α : Type} (eq : α → α → Bool) : List α → List α → Bool
  | [], [] => true
  | a :: as, b :: bs => eq a b && eqList eq as bs
  | _, _ => false

theorem eqList_ok {α : Type} {eq : α → α → Bool} (h : ∀ a b, eq a b = true → a = b) :
    ∀ a b : List α, eqList eq a b = true → a = b
  | [], [], _ => rfl
  | x :: a, y :: b, e => by
    simp only [eqList, Bool.and_eq_true] at e
    rw [h x y e.1, eqList_ok h a b e.2]
  | [], _ :: _, h => by simp [eqList] at h
  | _ :: _, [], h => by simp [eqList] at h

/-- The same member. -/
def eqMember (a b : Member) : Bool :=
  decide (a.name = b.name) && eqType a.type b.type && decide (a.val = b.val) && decide (a.bit = b.bit)

theorem eqMember_ok (a b : Member) (h : eqMember a b = true) : a = b := by
  obtain ⟨n, t, v, w⟩ := a
  obtain ⟨n', t', v', w'⟩ := b
  simp only [eqMember, Bool.and_eq_true, decide_eq_true_eq] at h
  obtain ⟨⟨⟨rfl, h⟩, rfl⟩, rfl⟩ := h
  rw [eqType_ok h]

/-- The same definition (a function must be one after `add_compatibility_hack`). -/
def eqDef : DefVal → DefVal → Bool
  | .func (.func r ps q), .func (.func r' ps' q') => eqType r r' && eqParams ps ps' && decide (q = q')
  | .type a, .type b => eqType a b
  | .var v a, .var w b => decide (v = w) && eqType a b
  | .compound ms p, .compound ns q => eqList eqMember ms ns && decide (p = q)
  | .value v, .value w => decide (v = w)
  | .enum d, .enum e => decide (d = e)
  | .macro s, .macro t => decide (s = t)
  | .fnmacro f, .fnmacro g => decide (f = g)
  | _, _ => false

theorem eqDef_ok (a b : DefVal) (h : eqDef a b = true) : a = b := by
  cases a <;> cases b <;> simp only [eqDef, Bool.and_eq_true, decide_eq_true_eq, Bool.false_eq_true] at h
  · rw [eqType_ok h]
  · rename_i x y
    cases x <;> cases y <;> simp only [eqDef, Bool.and_eq_true, decide_eq_true_eq, Bool.false_eq_true] at h
    rw [eqType_ok h.1.1, eqParams_ok _ _ h.1.2, h.2]
  · rw [h.1, eqType_ok h.2]
  · rw [h]
  · rw [h]
  · rw [eqList_ok eqMember_ok _ _ h.1, h.2]
  · rw [h]
  · rw [h]

/-- The same table. -/
def eqTable (a b : Dict Str DefVal) : Bool := eqList (fun x y => decide (x.1 = y.1) && eqDef x.2 y.2) a b

theorem eqTable_ok {a b : Dict Str DefVal} (h : eqTable a b = true) : a = b := by
  refine eqList_ok ?_ a b h
  rintro ⟨k, v⟩ ⟨k', v'⟩ h
  simp only [Bool.and_eq_true, decide_eq_true_eq] at h
  rw [h.1, eqDef_ok _ _ h.2]

end Pyclib
