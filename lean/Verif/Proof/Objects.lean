import Verif.Model.Objects
import Verif.Spec.Classes
import Verif.Props.Tables
/-! Numbering the array lists: what stays the same, and whose list is whose. -/
namespace Pyclib
open Spec

/-- Who list number `i` belongs to. -/
def ownAt (l : Lists Owner) (i : Int) : Owner := ((l[i.toNat]?).map (·.1)).getD .shared

section
variable (dim : Int → Option Int)

mutual
/-- The second list of modifiers is the first with identities in place of lengths. -/
inductive NumMods : List CMod → List CMod → Prop
  | nil : NumMods [] []
  | sym (s : Str) (ms ms' : List CMod) (h : NumMods ms ms') : NumMods (.sym s :: ms) (.sym s :: ms')
  | arr (i : Int) (ms ms' : List CMod) (h : NumMods ms ms') : NumMods (.arr [dim i] :: ms) (.arr [some i] :: ms')
  | fn (ps ps' : List Param) (ms ms' : List CMod) (hp : NumParams ps ps') (h : NumMods ms ms') :
      NumMods (.fn ps :: ms) (.fn ps' :: ms')
/-- The same for parameters. -/
inductive NumParams : List Param → List Param → Prop
  | nil : NumParams [] []
  | cons (n : Option Str) (s : Str) (q : List Qual) (ms ms' : List CMod) (d : Option Str) (ps ps' : List Param)
      (h : NumMods ms ms') (hs : NumParams ps ps') : NumParams ((n, ⟨s, ms, q⟩, d) :: ps) ((n, ⟨s, ms', q⟩, d) :: ps')
end

/-- The same for a type. -/
structure Num (t t' : CType) : Prop where
  spec : t'.spec = t.spec
  quals : t'.quals = t.quals
  mods : NumMods dim t.mods t'.mods

end

section
variable {dim : Int → Option Int}

theorem NumMods.append {a a' b b' : List CMod} (h1 : NumMods dim a a') (h2 : NumMods dim b b') :
    NumMods dim (a ++ b) (a' ++ b') := by
  induction a generalizing a' with
  | nil => cases h1; exact h2
  | cons m ms ih =>
    cases h1 with
    | sym s _ ms' h => exact .sym _ _ _ (ih h)
    | arr i _ ms' h => exact .arr _ _ _ (ih h)
    | fn ps ps' _ ms' hp h => exact .fn _ _ _ _ hp (ih h)

theorem NumMods.take {a a' : List CMod} (h : NumMods dim a a') (n : Nat) : NumMods dim (a.take n) (a'.take n) := by
  induction n generalizing a a' with
  | zero => exact .nil
  | succ n ih =>
    cases h with
    | nil => exact .nil
    | sym s ms ms' h => exact .sym _ _ _ (ih h)
    | arr i ms ms' h => exact .arr _ _ _ (ih h)
    | fn ps ps' ms ms' hp h => exact .fn _ _ _ _ hp (ih h)

theorem NumMods.len {a a' : List CMod} (h : NumMods dim a a') : a'.length = a.length := by
  induction a generalizing a' with
  | nil => cases h; rfl
  | cons m ms ih =>
    cases h with
    | sym s _ ms' h => simp [ih h]
    | arr i _ ms' h => simp [ih h]
    | fn ps ps' _ ms' hp h => simp [ih h]

/-- What is the same for all numberings. -/
def modKind : CMod → CMod
  | .sym s => .sym s
  | .arr _ => .arr []
  | .fn _ => .fn []

theorem NumMods.kinds {a a' : List CMod} (h : NumMods dim a a') : a'.map modKind = a.map modKind := by
  induction a generalizing a' with
  | nil => cases h; rfl
  | cons m ms ih =>
    cases h with
    | sym s _ ms' h => simp [ih h, modKind]
    | arr i _ ms' h => simp [ih h, modKind]
    | fn ps ps' _ ms' hp h => simp [ih h, modKind]

theorem NumMods.refs {a a' : List CMod} (h : NumMods dim a a') : Refs a' := by
  intro d hd
  induction a generalizing a' with
  | nil => cases h; cases hd
  | cons m ms ih =>
    cases h with
    | sym s _ ms' h => simp at hd; exact ih h hd
    | arr i _ ms' h =>
      simp at hd
      rcases hd with rfl | hd
      · exact ⟨i, rfl⟩
      · exact ih h hd
    | fn ps ps' _ ms' hp h => simp at hd; exact ih h hd

theorem noAdj_kinds {l l' : List CMod} (h : l'.map modKind = l.map modKind) (hn : NoAdj l) : NoAdj l' := by
  intro a b x y e
  subst e
  simp only [List.map_append, List.map_cons, modKind] at h
  obtain ⟨x0, r, rfl, h1, h2⟩ := List.map_eq_append_iff.1 h.symm
  obtain ⟨m1, r1, rfl, h3, h4⟩ := List.map_eq_cons_iff.1 h2
  obtain ⟨m2, r2, rfl, h5, h6⟩ := List.map_eq_cons_iff.1 h4
  cases m1 <;> simp only [modKind, reduceCtorEq] at h3
  cases m2 <;> simp only [modKind, reduceCtorEq] at h5
  exact hn _ _ _ _ rfl

theorem fnPtrs_kinds {w : Bool} : ∀ {l l' : List CMod}, l'.map modKind = l.map modKind → FnPtrs w l → FnPtrs w l'
  | [], l', h, hf => by
    cases l' with
    | nil => trivial
    | cons _ _ => simp at h
  | .arr _ :: ms, l', h, hf => by
    cases l' with
    | nil => simp at h
    | cons m l' =>
      simp only [List.map_cons, List.cons.injEq] at h
      cases m <;> simp only [modKind, reduceCtorEq, false_and] at h
      exact (show FnPtrs w l' from fnPtrs_kinds h.2 hf)
  | .sym s :: ms, l', h, hf => by
    cases l' with
    | nil => simp at h
    | cons m l' =>
      simp only [List.map_cons, List.cons.injEq] at h
      cases m <;> simp only [modKind, reduceCtorEq, false_and, CMod.sym.injEq] at h
      obtain ⟨rfl, h⟩ := h
      exact ⟨hf.1, fnPtrs_kinds h hf.2⟩
  | [.fn _], l', h, hf => hf.elim
  | .fn _ :: .arr _ :: _, l', h, hf => hf.elim
  | .fn _ :: .fn _ :: _, l', h, hf => hf.elim
  | .fn _ :: .sym s :: ms, l', h, hf => by
    cases l' with
    | nil => simp at h
    | cons m l' =>
      simp only [List.map_cons, List.cons.injEq] at h
      cases m <;> simp only [modKind, reduceCtorEq, false_and] at h
      obtain ⟨_, h⟩ := h
      cases l' with
      | nil => simp at h
      | cons m l' =>
        simp only [List.map_cons, List.cons.injEq] at h
        cases m <;> simp only [modKind, reduceCtorEq, false_and, CMod.sym.injEq] at h
        obtain ⟨rfl, h⟩ := h
        have hh : ∀ x, (l'.head? = some (.sym x) ↔ ms.head? = some (.sym x)) := by
          intro x
          cases l' with
          | nil => cases ms with
            | nil => simp
            | cons _ _ => simp at h
          | cons m l' => cases ms with
            | nil => simp at h
            | cons m' ms =>
              simp only [List.map_cons, List.cons.injEq] at h
              cases m <;> cases m' <;> simp only [modKind, reduceCtorEq, false_and, CMod.sym.injEq] at h <;> simp [h]
        rcases hf with ⟨h1, h2, h3⟩ | ⟨h1, h2, h3⟩
        · exact .inl ⟨h1, fnPtrs_kinds h h2, fun e => h3 ((hh _).1 e)⟩
        · exact .inr ⟨h1, fnPtrs_kinds h h2, (hh _).2 h3⟩

theorem NumMods.mem_fn {a a' : List CMod} (h : NumMods dim a a') {ps' : List Param} (hp : .fn ps' ∈ a') :
    ∃ ps, .fn ps ∈ a ∧ NumParams dim ps ps' := by
  induction a generalizing a' with
  | nil => cases h; cases hp
  | cons m ms ih =>
    cases h with
    | sym s _ ms' h => simp at hp; obtain ⟨ps, h1, h2⟩ := ih h hp; exact ⟨ps, by simp [h1], h2⟩
    | arr i _ ms' h => simp at hp; obtain ⟨ps, h1, h2⟩ := ih h hp; exact ⟨ps, by simp [h1], h2⟩
    | fn ps0 ps1 _ ms' hq h =>
      simp at hp
      rcases hp with rfl | hp
      · exact ⟨ps0, by simp, hq⟩
      · obtain ⟨ps, h1, h2⟩ := ih h hp; exact ⟨ps, by simp [h1], h2⟩

theorem NumParams.mem {ps ps' : List Param} (h : NumParams dim ps ps') {p' : Param} (hp : p' ∈ ps') :
    ∃ p, p ∈ ps ∧ Num dim p.2.1 p'.2.1 := by
  induction ps generalizing ps' with
  | nil => cases h; cases hp
  | cons p ps ih =>
    cases h with
    | cons n s q ms ms' d _ ps'' h hs =>
      simp at hp
      rcases hp with rfl | hp
      · exact ⟨(n, ⟨s, ms, q⟩, d), by simp, rfl, rfl, h⟩
      · obtain ⟨p, h1, h2⟩ := ih hs hp; exact ⟨p, by simp [h1], h2⟩

/-- Types inside a numbered type come from types inside the type. -/
theorem num_inside {u' t' : CType} (hi : Inside u' t') : ∀ {t : CType}, Num dim t t' → ∃ u, Inside u t ∧ Num dim u u' := by
  induction hi with
  | refl t' => intro t h; exact ⟨t, .refl t, h⟩
  | param t' u' ps' p' hf hp hi ih =>
    intro t h
    obtain ⟨ps, h1, h2⟩ := h.mods.mem_fn hf
    obtain ⟨p, h3, h4⟩ := h2.mem hp
    obtain ⟨u, h5, h6⟩ := ih h4
    exact ⟨u, .param t u ps p h1 h3 h5, h6⟩

/-- The typedefs of the second table are those of the first, numbered. -/
def NumTab (dim : Int → Option Int) (tm tm' : Dict Str CType) : Prop :=
  ∀ s, (dget tm s = none ∧ dget tm' s = none) ∨ ∃ t t', dget tm s = some t ∧ dget tm' s = some t' ∧ Num dim t t'

theorem num_splice {pt pt' t t' r' : CType} (hp : Num dim pt pt') (ht : Num dim t t') (h : Splice pt' t' r') :
    ∃ r, Splice pt t r ∧ Num dim r r' := by
  obtain ⟨qs, a, b, rest, h1, h2, rfl⟩ := h
  exact ⟨_, ⟨qs, a, b, rest, by rw [← hp.quals]; exact h1, by rw [← ht.quals]; exact h2, rfl⟩, hp.spec, rfl,
    hp.mods.append ht.mods⟩

theorem num_resolves {cfg : Cfg} {tm tm' : Dict Str CType} (hm : NumTab dim tm tm') {t' b' : CType}
    (h : Resolves cfg tm' t' b') : ∀ {t : CType}, Num dim t t' → ∃ b, Resolves cfg tm t b ∧ Num dim b b' := by
  induction h with
  | base hf => intro t ht; exact ⟨t, .base (by rw [← ht.spec]; exact hf), ht⟩
  | step hf hd hs hr ih =>
    intro t ht
    rcases hm t.spec with ⟨_, h2⟩ | ⟨pt, pt', h1, h2, h3⟩
    · rw [ht.spec, h2] at hd; cases hd
    · rw [ht.spec, h2] at hd; cases hd
      obtain ⟨r, h4, h5⟩ := num_splice h3 ht hs
      obtain ⟨b, h6, h7⟩ := ih h5
      exact ⟨b, .step (by rw [← ht.spec]; exact hf) h1 h4 h6, h7⟩

/-- Resolution appends the modifiers. -/
theorem resolves_suffix {cfg : Cfg} {tm : Dict Str CType} {t b : CType} (h : Resolves cfg tm t b) :
    ∃ pre, b.mods = pre ++ t.mods := by
  induction h with
  | base hf => exact ⟨[], rfl⟩
  | step hf hd hs hr ih =>
    obtain ⟨pre, hp⟩ := ih
    obtain ⟨qs, a, b, rest, h1, h2, rfl⟩ := hs
    exact ⟨_, by rw [hp, ← List.append_assoc]⟩

/-- The shape conditions hold for numbered types. -/
theorem num_shape {cfg : Cfg} {s : Store DefVal} {tm' : Dict Str CType} (hm : NumTab dim (typeTable (s.defs .types)) tm')
    {shared : Bool} {t t' : CType} (ht : Num dim t t') (hs : ShapeOk cfg s shared t) (b' : CType)
    (hb : Resolves cfg tm' t' b') : FnPtrs cfg.win32 b'.mods ∧ (shared = true → NoAdj b'.mods) ∧
      ∀ pre, b'.mods = pre ++ t'.mods → NoAdj (pre ++ t'.mods.take 1) := by
  obtain ⟨b, h1, h2⟩ := num_resolves hm hb ht
  obtain ⟨h3, h4, h5⟩ := hs b h1
  refine ⟨fnPtrs_kinds h2.mods.kinds h3, fun h => noAdj_kinds h2.mods.kinds (h4 h), fun pre' hpre => ?_⟩
  obtain ⟨pre, hpre0⟩ := resolves_suffix h1
  have hl : pre.length = pre'.length := by
    have e1 := h2.mods.len
    have e2 := ht.mods.len
    rw [hpre, hpre0] at e1
    simp at e1
    omega
  have e : NumMods dim pre pre' := by
    have := h2.mods.take pre.length
    rw [hpre0, hpre] at this
    rw [List.take_left' rfl, List.take_left' hl.symm] at this
    exact this
  exact noAdj_kinds (e.append (ht.mods.take 1)).kinds (h5 pre hpre0)

theorem num_finite {e e' : CtEnv} (hc : e'.cfg = e.cfg) (hm : NumTab dim e.tm e'.tm) {t : CType} (h : FiniteParams e t) :
    ∀ {t' : CType}, Num dim t t' → FiniteParams e' t' := by
  induction h with
  | mk t hq h ih =>
    intro t' ht
    refine .mk t' (by unfold QualsMatch; rw [ht.quals, ht.mods.len]; exact hq) fun r' ps' p' hr hf hp => ?_
    rw [hc] at hr
    obtain ⟨r, h1, h2⟩ := num_resolves hm hr ht
    obtain ⟨ps, h3, h4⟩ := h2.mods.mem_fn hf
    obtain ⟨p, h5, h6⟩ := h4.mem hp
    exact ih r ps p h1 h3 h5 h6

theorem num_arrs : ∀ (ns : List (Option Int)) {ms ms' : List CMod}, NumMods dim (ns.map (fun n => .arr [n]) ++ ms) ms' →
    ∃ (is : List Int) (ms0 : List CMod), ms' = is.map (fun i : Int => CMod.arr [some i]) ++ ms0 ∧ is.map dim = ns ∧ NumMods dim ms ms0
  | [], ms, ms', h => ⟨[], ms', rfl, rfl, h⟩
  | n :: ns, ms, ms', h => by
    cases h with
    | arr i _ ms1 h =>
      obtain ⟨is, ms0, rfl, rfl, h2⟩ := num_arrs ns h
      exact ⟨i :: is, ms0, rfl, rfl, h2⟩

theorem num_noArr {ms ms' : List CMod} (h : NumMods dim ms ms') (hn : ∀ l, ms.head? ≠ some (.arr l)) :
    ∀ l, ms'.head? ≠ some (.arr l) := by
  intro l
  cases h with
  | nil => simp
  | sym => simp
  | arr i ms ms' h => exact absurd rfl (hn [dim i])
  | fn => simp

theorem expand_arrs {cfg : Cfg} {td : Str → CTy → Prop} {k : Nat} : ∀ (ns : List (Option Int)) {b v : CTy},
    Expand cfg td k (arrsOf ns b) v → ∃ b', Expand cfg td k b b' ∧ v = arrsOf ns b'
  | [], b, v, h => ⟨v, h, rfl⟩
  | n :: ns, b, v, h => by
    cases h with
    | arr _ _ _ v h =>
      obtain ⟨b', h1, rfl⟩ := expand_arrs ns h
      exact ⟨b', h1, rfl⟩

/-- All modifiers of a type, at every depth, are well-formed. -/
def DeepMods (t : CType) : Prop := ∀ u, Inside u t → ∀ m ∈ u.mods, ModWf m

theorem DeepMods.param {t : CType} (h : DeepMods t) {ps : List Param} {p : Param} (hf : .fn ps ∈ t.mods) (hp : p ∈ ps) :
    DeepMods p.2.1 := fun u hu => h u (.param t u ps p hf hp hu)

/-- From the C type of the header to that of the numbered type: modifiers. -/
theorem num_meansMods {cfg : Cfg} {s : Store DefVal} {tm' : Dict Str CType} (k : Nat)
    (base : ∀ n b, Expand cfg (TypedefOf s) k (.base n) b → ∀ ms' q v, MeansMods cfg tm' dim b ms' v → Means cfg tm' dim ⟨n, ms', q⟩ v)
    (b : CTy) (ms : List CMod) (u : CTy) (h : DenMods b ms u) :
    ∀ ms' v, NumMods dim ms ms' → (∀ m ∈ ms, ModWf m) → (∀ ps p, .fn ps ∈ ms → p ∈ ps → DeepMods p.2.1) →
      Expand cfg (TypedefOf s) k u v →
      ∃ b', Expand cfg (TypedefOf s) k b b' ∧ MeansMods cfg tm' dim b' ms' v := by
  refine DenMods.rec
    (motive_1 := fun b ms u _ => ∀ ms' v, NumMods dim ms ms' → (∀ m ∈ ms, ModWf m) →
      (∀ ps p, .fn ps ∈ ms → p ∈ ps → DeepMods p.2.1) → Expand cfg (TypedefOf s) k u v →
      ∃ b', Expand cfg (TypedefOf s) k b b' ∧ MeansMods cfg tm' dim b' ms' v)
    (motive_2 := fun ps cs _ => ∀ ps' ds, NumParams dim ps ps' → (∀ p ∈ ps, DeepMods p.2.1) →
      ExpandParams cfg (TypedefOf s) k cs ds → MeansParams cfg tm' dim ps' ds)
    ?_ ?_ ?_ ?_ ?_ ?_ ?_ ?_ h
  · intro t ms' v hn _ _ he
    cases hn
    exact ⟨v, he, .nil v⟩
  · intro t ms u _ ih ms' v hn hm hp he
    cases hn with
    | sym _ _ ms' hn =>
      obtain ⟨b', h1, h2⟩ := ih ms' v hn (fun m h => hm m (by simp [h])) (fun ps p h => hp ps p (by simp [h])) he
      cases h1 with
      | ptr _ _ b0 h1 => exact ⟨b0, h1, .ptr _ _ _ h2⟩
  · intro t ms u _ ih ms' v hn hm hp he
    cases hn with
    | sym _ _ ms' hn =>
      obtain ⟨b', h1, h2⟩ := ih ms' v hn (fun m h => hm m (by simp [h])) (fun ps p h => hp ps p (by simp [h])) he
      cases h1 with
      | ref _ _ b0 h1 => exact ⟨b0, h1, .ref _ _ _ h2⟩
  · intro c t ms u hc _ ih ms' v hn hm hp he
    cases hn with
    | sym _ _ ms' hn =>
      obtain ⟨b', h1, h2⟩ := ih ms' v hn (fun m h => hm m (by simp [h])) (fun ps p h => hp ps p (by simp [h])) he
      refine ⟨b', h1, .conv c _ _ _ ?_ h2⟩
      rcases hm (.sym c) (by simp) with h | h | h | h
      · exact absurd h hc.1
      · exact absurd h hc.2
      · exact .inr h
      · exact .inl h
  · intro n ns t ms u hh _ ih ms' v hn hm hp he
    obtain ⟨is, ms0, rfl, e, hn0⟩ := num_arrs (n :: ns) hn
    obtain ⟨b', h1, h2⟩ := ih ms0 v hn0 (fun m h => hm m (by simp [h])) (fun ps p h => hp ps p (by simp [h])) he
    obtain ⟨b0, h3, rfl⟩ := expand_arrs _ h1
    cases is with
    | nil => simp at e
    | cons i is =>
      rw [← e] at h2
      exact ⟨b0, h3, .arrs i is b0 ms0 v (num_noArr hn0 hh) h2⟩
  · intro ps cs t ms u _ _ ihp ih ms' v hn hm hp he
    cases hn with
    | fn _ ps' _ ms' hnp hn =>
      obtain ⟨b', h1, h2⟩ := ih ms' v hn (fun m h => hm m (by simp [h])) (fun ps p h => hp ps p (by simp [h])) he
      cases h1 with
      | fn _ _ ds _ b0 h3 h1 =>
        exact ⟨b0, h1, .fn _ _ _ _ _ (ihp ps' ds hnp (fun p h => hp ps p (by simp) h) h3) h2⟩
  · intro ps' ds hn _ he
    cases hn; cases he
    exact .nil
  · intro n t d ps u cs _ _ ih ihs ps' ds hn hm he
    cases hn with
    | cons _ sp q ms ms' _ _ ps' hn hns =>
      cases he with
      | cons _ _ _ v _ ds he hes =>
        have hdm := hm (n, ⟨sp, ms, q⟩, d) (by simp)
        obtain ⟨b', h1, h2⟩ := ih ms' v hn (fun m h => hdm _ (.refl _) m h) (fun ps p h1 h2 => hdm.param h1 h2) he
        exact .cons _ _ _ _ _ _ (base sp b' h1 ms' q v h2) (ihs ps' ds hns (fun p h => hm p (by simp [h])) hes)

/-- From the C type of the header to that of the numbered type. -/
theorem num_means {cfg : Cfg} {s : Store DefVal} {tm' : Dict Str CType} (hm : NumTab dim (typeTable (s.defs .types)) tm')
    (hd : ∀ n t, dget (s.defs .types) n = some (.type t) → ¬ Fundamental cfg n → DeepMods t) (k : Nat) :
    ∀ (t t' : CType) (u v : CTy), Num dim t t' → Denotes t u → DeepMods t → Expand cfg (TypedefOf s) k u v →
      Means cfg tm' dim t' v := by
  induction k with
  | zero =>
    intro t t' u v hn hu hdm he
    have base : ∀ n b, Expand cfg (TypedefOf s) 0 (.base n) b → ∀ ms' q v, MeansMods cfg tm' dim b ms' v →
        Means cfg tm' dim ⟨n, ms', q⟩ v := by
      intro n b h ms' q v hv
      cases h with
      | fund _ _ hf => exact .fund _ _ hf hv
    obtain ⟨b, h1, h2⟩ := num_meansMods 0 base _ _ _ hu t'.mods v hn.mods (fun m h => hdm _ (.refl _) m h)
      (fun ps p h1 h2 => hdm.param h1 h2) he
    obtain ⟨sp', ms', q'⟩ := t'
    have := hn.spec
    simp only at this
    subst this
    exact base _ _ h1 _ _ _ h2
  | succ k ih =>
    intro t t' u v hn hu hdm he
    have base : ∀ n b, Expand cfg (TypedefOf s) (k + 1) (.base n) b → ∀ ms' q v, MeansMods cfg tm' dim b ms' v →
        Means cfg tm' dim ⟨n, ms', q⟩ v := by
      intro n b h ms' q v hv
      cases h with
      | fund _ _ hf => exact .fund _ _ hf hv
      | name _ _ u _ hf hdf h =>
        obtain ⟨pt, h1, h2⟩ := hdf
        rcases hm n with ⟨h3, _⟩ | ⟨pt0, pt', h3, h4, h5⟩
        · rw [(typeTable_get _ n).1 pt h1] at h3; cases h3
        · rw [(typeTable_get _ n).1 pt h1] at h3; cases h3
          exact .typedef _ pt' b _ hf h4 (ih pt pt' u b h5 h2 (hd n pt h1 hf) h) hv
    obtain ⟨b, h1, h2⟩ := num_meansMods (k + 1) base _ _ _ hu t'.mods v hn.mods (fun m h => hdm _ (.refl _) m h)
      (fun ps p h1 h2 => hdm.param h1 h2) he
    obtain ⟨sp', ms', q'⟩ := t'
    have := hn.spec
    simp only at this
    subst this
    exact base _ _ h1 _ _ _ h2

end

end Pyclib
