import Verif.Proof.Signed
import Mathlib.Data.List.Perm.Subperm
namespace Pyclib
open Spec

theorem fundWord_iff (cfg : Cfg) (w : Str) : FundWord cfg w ↔ w ∈ fundNames cfg := by
  unfold FundWord fundNames numTypes nonnumTypes sizeModifiers signModifiers c99IntTypes
  cases cfg with
  | mk a b e =>
    cases a <;> cases b <;> simp <;> grind

theorem isFund_iff (cfg : Cfg) (s : Str) : isFund cfg s = true ↔ Fundamental cfg s := by
  unfold isFund Fundamental
  simp only [← startsWith_iff]
  by_cases h1 : startsWith s c%"struct " = true
  · simp [h1]
  by_cases h2 : startsWith s c%"union " = true
  · simp [h2]
  by_cases h3 : startsWith s c%"enum " = true
  · simp [h3]
  simp only [h1, h2, h3, Bool.or_self, Bool.false_eq_true, if_false, false_or,
    List.all_eq_true, decide_eq_true_eq, ← fundWord_iff]
  constructor
  · intro h; exact ⟨_, (splitWs_iff _ _).1 rfl, h⟩
  · rintro ⟨ws, hw, h⟩
    rw [(splitWs_iff _ _).2 hw]; exact h

theorem joinQuals_ok {pq sq q : List Qual} :
    joinQuals pq sq = .ok q ↔
      ∃ qs a b rest, pq = qs ++ [some a] ∧ sq = some b :: rest ∧ q = qs ++ some (a ++ b) :: rest := by
  unfold joinQuals
  cases hl : pq.getLast? with
  | none =>
    have : pq = [] := by simpa using hl
    subst this; simp
  | some l =>
    have hpq : pq = pq.dropLast ++ [l] := by
      rw [List.getLast?_eq_some_iff] at hl
      obtain ⟨ys, rfl⟩ := hl; simp
    cases sq with
    | nil => simp
    | cons b rest =>
      constructor
      · intro h
        cases l with
        | none => simp [qualAdd, bind, Except.bind] at h
        | some a =>
          cases b with
          | none => simp [qualAdd, bind, Except.bind] at h
          | some b =>
            simp [qualAdd, bind, Except.bind] at h
            exact ⟨pq.dropLast, a, b, rest, hpq, rfl, h.symm⟩
      · rintro ⟨qs, a, b', rest', h1, h2, rfl⟩
        subst h1
        simp at hl; subst hl
        injection h2 with h2 h3; subst h2; subst h3
        simp [qualAdd, bind, Except.bind]

theorem mkType_some_ok {spec : Str} {mods : List CMod} {q : List Qual}
    (h : q.length = 1 + mods.length) : mkType spec mods (some q) = .ok ⟨spec, mods, q⟩ := by
  unfold mkType
  cases q with
  | nil => simp at h; omega
  | cons a q => simp only [h, ne_eq, not_true_eq_false, if_false]

theorem splice_qualsMatch {pt t r : CType} (hp : QualsMatch pt) (ht : QualsMatch t)
    (hs : Splice pt t r) : QualsMatch r := by
  obtain ⟨qs, a, b, rest, h1, h2, rfl⟩ := hs
  simp only [QualsMatch, h1, h2, List.length_append, List.length_cons, List.length_nil] at *
  omega

/-- The unfolding of one step of `evalAux` on a typedef name, in terms of the specification. -/
theorem evalAux_step {cfg : Cfg} {tm : Dict Str CType} {n : Nat} {t pt : CType} {used : List Str}
    (hf : ¬ Fundamental cfg t.spec) (hu : t.spec ∉ used) (hg : dget tm t.spec = some pt)
    (hp : QualsMatch pt) (ht : QualsMatch t) (r : CType) :
    evalAux cfg tm (n + 1) t used = .ok r ↔
      ∃ t', Splice pt t t' ∧ evalAux cfg tm n t' (used ++ [t.spec]) = .ok r := by
  have hf' : isFund cfg t.spec = false := by
    cases h : isFund cfg t.spec with
    | false => rfl
    | true => exact absurd ((isFund_iff cfg t.spec).1 h) hf
  simp only [evalAux, hf', hu, hg, Bool.false_eq_true, if_false]
  constructor
  · intro h
    cases hq : joinQuals pt.quals t.quals with
    | error e => simp [hq, bind, Except.bind] at h
    | ok q =>
      obtain ⟨qs, a, b, rest, h1, h2, rfl⟩ := joinQuals_ok.1 hq
      have hm : (qs ++ some (a ++ b) :: rest).length = 1 + (pt.mods ++ t.mods).length := by
        simp only [QualsMatch, h1, h2, List.length_append, List.length_cons, List.length_nil] at *
        omega
      simp only [hq, bind, Except.bind, mkType_some_ok hm] at h
      exact ⟨_, ⟨qs, a, b, rest, h1, h2, rfl⟩, h⟩
  · rintro ⟨t', ⟨qs, a, b, rest, h1, h2, rfl⟩, h⟩
    have hq : joinQuals pt.quals t.quals = .ok (qs ++ some (a ++ b) :: rest) :=
      joinQuals_ok.2 ⟨qs, a, b, rest, h1, h2, rfl⟩
    have hm : (qs ++ some (a ++ b) :: rest).length = 1 + (pt.mods ++ t.mods).length := by
      simp only [QualsMatch, h1, h2, List.length_append, List.length_cons, List.length_nil] at *
      omega
    simp only [hq, bind, Except.bind, mkType_some_ok hm]
    exact h

theorem splice_spec {pt t r : CType} (h : Splice pt t r) : r.spec = pt.spec := by
  obtain ⟨qs, a, b, rest, h1, h2, rfl⟩ := h; rfl

theorem splice_exists {pt t : CType} (hp : QualsMatch pt) (ht : QualsMatch t)
    (hpl : ∀ q ∈ pt.quals.getLast?, q ≠ none) (hth : ∀ q ∈ t.quals.head?, q ≠ none) :
    ∃ r, Splice pt t r := by
  cases hl : pt.quals.getLast? with
  | none =>
    have : pt.quals = [] := by simpa using hl
    simp [QualsMatch, this] at hp; omega
  | some l =>
    obtain ⟨qs, hqs⟩ := List.getLast?_eq_some_iff.1 hl
    cases hq : t.quals with
    | nil => simp [QualsMatch, hq] at ht; omega
    | cons b rest =>
      cases l with
      | none => exact absurd rfl (hpl none (by simp [hl]))
      | some a =>
        cases b with
        | none => exact absurd rfl (hth none (by simp [hq]))
        | some b => exact ⟨_, qs, a, b, rest, hqs, hq, rfl⟩

theorem splice_head {pt t r : CType} (h : Splice pt t r)
    (hph : ∀ q ∈ pt.quals.head?, q ≠ none) : ∀ q ∈ r.quals.head?, q ≠ none := by
  obtain ⟨qs, a, b, rest, h1, h2, rfl⟩ := h
  intro q hq
  cases qs with
  | nil => simp at hq; subst hq; simp
  | cons x qs =>
    rw [h1] at hph
    simp at hq hph; subst hq; exact hph

/-! ### Names: determinism of the typedef chain -/

theorem nameStep_det {cfg tm s a b} (h1 : NameStep cfg tm s a) (h2 : NameStep cfg tm s b) : a = b := by
  cases h1 with
  | mk hf h => cases h2 with
    | mk hf' h' => rw [h] at h'; injection h' with h'; rw [h']

theorem reaches_trans {cfg tm a b c} (h1 : Reaches cfg tm a b) (h2 : Reaches cfg tm b c) :
    Reaches cfg tm a c := by
  induction h1 with
  | refl => exact h2
  | step h _ ih => exact .step h (ih h2)

/-- On a chain that ends at a name with no step, any other reachable name lies before the end. -/
theorem reaches_end {cfg tm a b e} (he : ∀ x, ¬ NameStep cfg tm e x)
    (h1 : Reaches cfg tm a e) (h2 : Reaches cfg tm a b) : Reaches cfg tm b e := by
  induction h2 with
  | refl => exact h1
  | step h _ ih =>
    cases h1 with
    | refl => exact absurd h (he _)
    | step h' r => rw [nameStep_det h' h] at r; exact ih r

/-- A name on a cycle reaches no end. -/
theorem cycle_no_end {cfg tm c c' e} (he : ∀ x, ¬ NameStep cfg tm e x)
    (h1 : NameStep cfg tm c c') (h2 : Reaches cfg tm c' c) (h3 : Reaches cfg tm c e) : False := by
  -- induction on the chain c -> e, for all cycles
  have key : ∀ a b, Reaches cfg tm a b → (∀ x, ¬ NameStep cfg tm b x) →
      ∀ a', NameStep cfg tm a a' → Reaches cfg tm a' a → False := by
    intro a b hab
    induction hab with
    | refl => intro he a' h _; exact he a' h
    | step h r ih =>
      intro he a' h' hr
      have := nameStep_det h' h
      subst this
      -- the cycle rotated: s' -> ... -> s -> s'
      cases hr with
      | refl => exact ih he _ h' (.refl _)
      | step h2 r2 => exact ih he _ h2 (reaches_trans r2 (.step h' (.refl _)))
  exact key c e h3 he c' h1 h2

theorem no_step_of_fund {cfg tm e} (h : Fundamental cfg e) : ∀ x, ¬ NameStep cfg tm e x := by
  intro x hx; cases hx with | mk hf _ => exact hf h

theorem no_step_of_unknown {cfg} {tm : Dict Str CType} {e} (h : dget tm e = none) :
    ∀ x, ¬ NameStep cfg tm e x := by
  intro x hx; cases hx with | mk _ hg => rw [h] at hg; cases hg

/-! ### The main loop invariant -/

/-- Invariant on `used`: distinct typedef names, each of which leads to the current name. -/
structure UsedInv (cfg : Cfg) (tm : Dict Str CType) (used : List Str) (cur : Str) : Prop where
  nodup : used.Nodup
  sub : ∀ u ∈ used, u ∈ dkeys tm
  leads : ∀ u ∈ used, ∃ u', NameStep cfg tm u u' ∧ Reaches cfg tm u' cur

theorem UsedInv.length_le {cfg tm used cur} (h : UsedInv cfg tm used cur) :
    used.length ≤ tm.length := by
  have h2 : used.length ≤ (dkeys tm).length := by
    have : used.Subperm (dkeys tm) := by
      exact List.subperm_of_subset h.nodup h.sub
    exact this.length_le
  simpa [dkeys] using h2

theorem UsedInv.push {cfg tm used cur nxt} (h : UsedInv cfg tm used cur) (hs : NameStep cfg tm cur nxt)
    (hn : cur ∉ used) : UsedInv cfg tm (used ++ [cur]) nxt := by
  refine ⟨?_, ?_, ?_⟩
  · rw [List.nodup_append]
    refine ⟨h.nodup, by simp, ?_⟩
    intro a ha b hb
    simp at hb; subst hb
    intro e; subst e; exact hn ha
  · intro u hu
    rcases List.mem_append.1 hu with hu | hu
    · exact h.sub u hu
    · simp at hu; subst hu
      cases hs with
      | mk _ hg => exact dget_isSome_iff.1 (by rw [hg]; rfl)
  · intro u hu
    rcases List.mem_append.1 hu with hu | hu
    · obtain ⟨u', h1, h2⟩ := h.leads u hu
      exact ⟨u', h1, reaches_trans h2 (.step hs (.refl _))⟩
    · simp at hu; subst hu
      exact ⟨nxt, hs, .refl _⟩

theorem joinQuals_err {pq sq : List Qual} {e} (h : joinQuals pq sq = .error e) :
    e = .typeError ∨ e = .indexError := by
  unfold joinQuals at h
  split at h
  · rename_i a b rest _
    cases a <;> cases b <;> simp [qualAdd, bind, Except.bind] at h <;> simp [← h]
  · simp at h; exact Or.inr h.symm

theorem mkType_err {spec mods q e} (h : mkType spec mods q = .error e) : e = .valueError := by
  unfold mkType at h
  simp only at h
  split at h
  · split at h <;> simp at h; exact h.symm
  · split at h <;> simp at h; exact h.symm
  · split at h <;> simp at h; exact h.symm

theorem mkType_spec {spec mods q r} (h : mkType spec mods q = .ok r) : r.spec = spec := by
  unfold mkType at h
  simp only at h
  split at h
  · split at h <;> simp at h; rw [← h]
  · split at h <;> simp at h; rw [← h]
  · split at h <;> simp at h; rw [← h]

theorem not_fund_of_isFund {cfg : Cfg} {s : Str} (h : isFund cfg s = false) : ¬ Fundamental cfg s := by
  intro hf; rw [(isFund_iff cfg s).2 hf] at h; cases h

/-- With enough fuel the recursion never runs out (no condition on the types at all). -/
theorem evalAux_fuel {cfg : Cfg} {tm : Dict Str CType} (n : Nat) (t : CType) (used : List Str)
    (hi : UsedInv cfg tm used t.spec) (hn : tm.length < n + used.length) :
    evalAux cfg tm n t used ≠ .error .recursionError := by
  induction n generalizing t used with
  | zero => have := hi.length_le; omega
  | succ n ih =>
    rw [evalAux]
    split
    · intro h; have := mkType_err h; cases this
    · rename_i hf
      have hf' : ¬ Fundamental cfg t.spec := not_fund_of_isFund (by simpa using hf)
      split
      · simp
      · rename_i hu
        split
        · simp
        · rename_i pt hg
          intro h
          cases hq : joinQuals pt.quals t.quals with
          | error e =>
            simp [hq, bind, Except.bind] at h
            rcases joinQuals_err hq with rfl | rfl <;> cases h
          | ok q =>
            cases hm : mkType pt.spec (pt.mods ++ t.mods) (some q) with
            | error e =>
              simp [hq, hm, bind, Except.bind] at h
              have := mkType_err hm; subst this; cases h
            | ok t' =>
              simp only [hq, hm, bind, Except.bind] at h
              have hs := mkType_spec hm
              refine ih t' _ ?_ ?_ h
              · rw [hs]; exact hi.push (.mk hf' hg) hu
              · simp only [List.length_append, List.length_cons, List.length_nil]; omega

/-- More fuel does not change a result that is not `RecursionError`. -/
theorem evalAux_mono {cfg : Cfg} {tm : Dict Str CType} (n : Nat) (t : CType) (used : List Str)
    (h : evalAux cfg tm n t used ≠ .error .recursionError) :
    evalAux cfg tm (n + 1) t used = evalAux cfg tm n t used := by
  induction n generalizing t used with
  | zero => simp [evalAux] at h
  | succ n ih =>
    rw [evalAux]
    rw [evalAux] at h ⊢
    split
    · rfl
    · rename_i hf
      split
      · rfl
      · rename_i hu
        split
        · rfl
        · rename_i pt hg
          simp only [hf, hu, hg, if_false, Bool.false_eq_true] at h
          cases hq : joinQuals pt.quals t.quals with
          | error e => rfl
          | ok q =>
            cases hm : mkType pt.spec (pt.mods ++ t.mods) (some q) with
            | error e => simp [hm, bind, Except.bind]
            | ok t' =>
              simp only [hq, hm, bind, Except.bind] at h ⊢
              exact ih _ _ h

theorem usedInv_nil (cfg tm s) : UsedInv cfg tm [] s := ⟨by simp, by simp, by simp⟩

theorem Resolves.reaches' {cfg tm t b} (h : Resolves cfg tm t b) :
    Reaches cfg tm t.spec b.spec ∧ Fundamental cfg b.spec := by
  induction h with
  | base hf => exact ⟨.refl _, hf⟩
  | step hf hg hs _ ih =>
    rw [splice_spec hs] at ih
    exact ⟨.step (.mk hf hg) ih.1, ih.2⟩

/-- Every result of the algorithm is a resolution. -/
theorem evalAux_sound {cfg : Cfg} {tm : Dict Str CType} (hm : ∀ s pt, dget tm s = some pt → QualsMatch pt)
    (n : Nat) (t : CType) (used : List Str) (r : CType) (ht : QualsMatch t)
    (h : evalAux cfg tm n t used = .ok r) :
    ∃ b, Resolves cfg tm t b ∧ r = ⟨dropSigned b.spec, b.mods, b.quals⟩ ∧ QualsMatch b := by
  induction n generalizing t used with
  | zero => simp [evalAux] at h
  | succ n ih =>
    by_cases hf : Fundamental cfg t.spec
    · rw [evalAux, if_pos ((isFund_iff _ _).2 hf), mkType_some_ok ht] at h
      injection h with h
      exact ⟨t, .base hf, h.symm, ht⟩
    · have hf' : isFund cfg t.spec = false := by
        cases h : isFund cfg t.spec with
        | false => rfl
        | true => exact absurd ((isFund_iff cfg t.spec).1 h) hf
      by_cases hu : t.spec ∈ used
      · simp [evalAux, hf', hu] at h
      · cases hg : dget tm t.spec with
        | none => simp [evalAux, hf', hu, hg] at h
        | some pt =>
          obtain ⟨t', hs, h'⟩ := (evalAux_step hf hu hg (hm _ _ hg) ht r).1 h
          obtain ⟨b, hb, hr, hq⟩ := ih t' _ (splice_qualsMatch (hm _ _ hg) ht hs) h'
          exact ⟨b, .step hf hg hs hb, hr, hq⟩

/-- Every resolution is found. -/
theorem evalAux_complete {cfg : Cfg} {tm : Dict Str CType} (hm : ∀ s pt, dget tm s = some pt → QualsMatch pt)
    (n : Nat) (t b : CType) (used : List Str) (ht : QualsMatch t)
    (hi : UsedInv cfg tm used t.spec) (hn : tm.length < n + used.length)
    (h : Resolves cfg tm t b) :
    evalAux cfg tm n t used = .ok ⟨dropSigned b.spec, b.mods, b.quals⟩ := by
  induction n generalizing t used with
  | zero => have := hi.length_le; omega
  | succ n ih =>
    cases h with
    | base hf => rw [evalAux, if_pos ((isFund_iff _ _).2 hf), mkType_some_ok ht]
    | @step _ pt t' _ hf hg hs hr =>
      have hu : t.spec ∉ used := by
        intro hu
        obtain ⟨u', h1, h2⟩ := hi.leads _ hu
        have h0 := Resolves.reaches' (Resolves.step hf hg hs hr)
        exact cycle_no_end (no_step_of_fund h0.2) h1 h2 h0.1
      refine (evalAux_step hf hu hg (hm _ _ hg) ht _).2 ⟨t', hs, ?_⟩
      refine ih t' _ (splice_qualsMatch (hm _ _ hg) ht hs) ?_ ?_ hr
      · rw [splice_spec hs]; exact hi.push (.mk hf hg) hu
      · simp only [List.length_append, List.length_cons, List.length_nil]; omega

/-- The only error is `DefinitionError`, and only for cyclic or unknown chains. -/
theorem evalAux_error {cfg : Cfg} {tm : Dict Str CType} (hm : ∀ s pt, dget tm s = some pt → QualsMatch pt)
    (n : Nat) (t : CType) (used : List Str) (ht : QualsMatch t) (hq : QualsMergeable tm t)
    (hi : UsedInv cfg tm used t.spec) (hn : tm.length < n + used.length) (e : PyErr)
    (h : evalAux cfg tm n t used = .error e) :
    e = .definitionError ∧ (Cyclic cfg tm t.spec ∨ Unknown cfg tm t.spec) := by
  induction n generalizing t used with
  | zero => have := hi.length_le; omega
  | succ n ih =>
    by_cases hf : Fundamental cfg t.spec
    · rw [evalAux, if_pos ((isFund_iff _ _).2 hf), mkType_some_ok ht] at h
      cases h
    · have hf' : isFund cfg t.spec = false := by
        cases h : isFund cfg t.spec with
        | false => rfl
        | true => exact absurd ((isFund_iff cfg t.spec).1 h) hf
      by_cases hu : t.spec ∈ used
      · simp [evalAux, hf', hu] at h
        refine ⟨h.symm, Or.inl ?_⟩
        obtain ⟨u', h1, h2⟩ := hi.leads _ hu
        exact ⟨t.spec, u', .refl _, h1, h2⟩
      · cases hg : dget tm t.spec with
        | none =>
          simp [evalAux, hf', hu, hg] at h
          exact ⟨h.symm, Or.inr ⟨t.spec, .refl _, hf, hg⟩⟩
        | some pt =>
          obtain ⟨t', hs⟩ := splice_exists (hm _ _ hg) ht (hq.2 _ _ hg).1 hq.1
          have hm' : QualsMatch t' := splice_qualsMatch (hm _ _ hg) ht hs
          have h' : evalAux cfg tm n t' (used ++ [t.spec]) = .error e := by
            cases hr : evalAux cfg tm n t' (used ++ [t.spec]) with
            | ok r => rw [(evalAux_step hf hu hg (hm _ _ hg) ht r).2 ⟨t', hs, hr⟩] at h; cases h
            | error e' =>
              have hs2 := hs
              obtain ⟨qs, a, b, rest, h1, h2, rfl⟩ := hs2
              simp only [evalAux, hf', hu, hg, Bool.false_eq_true, if_false,
                joinQuals_ok.2 ⟨qs, a, b, rest, h1, h2, rfl⟩, bind, Except.bind] at h
              rw [mkType_some_ok hm'] at h
              simp only at h
              rw [hr] at h; exact h
          have hstep : NameStep cfg tm t.spec t'.spec := by
            rw [splice_spec hs]; exact .mk hf hg
          obtain ⟨he, hc⟩ := ih t' _ hm' ⟨splice_head hs (hq.2 _ _ hg).2, hq.2⟩
            (by exact hi.push hstep hu)
            (by simp only [List.length_append, List.length_cons, List.length_nil]; omega) h'
          refine ⟨he, ?_⟩
          rcases hc with ⟨c, c', h1, h2, h3⟩ | ⟨u, h1, h2, h3⟩
          · exact Or.inl ⟨c, c', .step hstep h1, h2, h3⟩
          · exact Or.inr ⟨u, .step hstep h1, h2, h3⟩

end Pyclib
