import Verif.Spec.Decl
import Verif.Spec.Types
/-! Lemmas on declarators. -/
namespace Pyclib
open Spec

mutual
/-- Every function type inside the modifiers has parameters whose types carry one qualifier group per
level. -/
inductive GoodMods : List CMod → Prop
  | nil : GoodMods []
  | sym (s : Str) (ms : List CMod) (h : GoodMods ms) : GoodMods (.sym s :: ms)
  | arr (l : List (Option Int)) (ms : List CMod) (h : GoodMods ms) : GoodMods (.arr l :: ms)
  | fn (ps : List Param) (ms : List CMod) (hp : GoodParams ps) (h : GoodMods ms) : GoodMods (.fn ps :: ms)
/-- Parameter types carry one qualifier group per level, at every depth. -/
inductive GoodParams : List Param → Prop
  | nil : GoodParams []
  | cons (n : Option Str) (t : CType) (v : Option Str) (ps : List Param) (h : QualsMatch t)
      (hm : GoodMods t.mods) (hs : GoodParams ps) : GoodParams ((n, t, v) :: ps)
end

theorem GoodMods.append {a b : List CMod} (ha : GoodMods a) (hb : GoodMods b) : GoodMods (a ++ b) := by
  induction a with
  | nil => exact hb
  | cons m a ih =>
    cases ha with
    | sym s _ h => exact .sym s _ (ih h)
    | arr l _ h => exact .arr l _ (ih h)
    | fn ps _ hp h => exact .fn ps _ hp (ih h)

theorem levelToks_good (ev : Str → PVal) (conv : Option Str) (ptrs : List (List Str)) (arrays : List Str) :
    GoodMods (levelToks ev conv ptrs arrays) := by
  have h1 : GoodMods (ptrs.map (fun _ => CMod.sym c%"*")) := by
    induction ptrs with
    | nil => exact .nil
    | cons p ps ih => exact .sym _ _ ih
  have h2 : GoodMods (arrays.map (fun x => CMod.arr [(ev x).dim])) := by
    induction arrays with
    | nil => exact .nil
    | cons p ps ih => exact .arr _ _ ih
  have h0 : GoodMods (match conv with | some c => [CMod.sym c] | none => []) := by
    cases conv with
    | none => exact .nil
    | some c => exact .sym _ _ .nil
  exact (h0.append h1).append h2

theorem level_length (ev : Str → PVal) (first : List Str) (conv : Option Str) (ptrs : List (List Str))
    (arrays : List Str) :
    (levelQuals first conv ptrs arrays).length = 1 + (levelToks ev conv ptrs arrays).length := by
  cases conv <;> simp [levelQuals, levelToks] <;> omega

/-- What `process_declarator` returns is well formed. -/
def DRes (name : Option Str) (r : Except PyErr (Option Str × List CMod × List Qual)) : Prop :=
  (∀ e, r = .error e → e = .typeError) ∧
  ∀ n toks quals, r = .ok (n, toks, quals) →
    n = name ∧ quals.length = 1 + toks.length ∧ (∃ q r, quals = some q :: r) ∧ GoodMods toks

theorem typeOf_ok (tq : List Str) (tn : Str) (toks : List CMod) (q : List Str) (r : List Qual)
    (hl : (some q :: r).length = 1 + toks.length) :
    typeOf tq tn toks (some q :: r) = .ok ⟨tn, toks, some (tq ++ q) :: r⟩ := by
  simp only [typeOf, qualAdd, mkType]
  simp only [List.length_cons] at hl
  simp; omega

theorem joinQuals_spec (pq : List Qual) (q : List Str) (r : List Qual) (hp : ∃ a b, pq = some a :: b) :
    (∀ e, joinQuals pq (some q :: r) = .error e → e = .typeError) ∧
    ∀ o, joinQuals pq (some q :: r) = .ok o → o.length = pq.length + r.length ∧ ∃ a b, o = some a :: b := by
  obtain ⟨a, b, rfl⟩ := hp
  unfold joinQuals
  cases hb : b.getLast? with
  | none =>
    rw [List.getLast?_eq_none_iff] at hb
    subst hb
    simp [qualAdd, bind, Except.bind]
    omega
  | some x =>
    obtain ⟨b', rfl⟩ := List.getLast?_eq_some_iff.1 hb
    have h1 : (some a :: (b' ++ [x])).getLast? = some x := by
      rw [← List.cons_append, List.getLast?_append]; simp
    have h2 : (some a :: (b' ++ [x])).dropLast = some a :: b' := by
      rw [← List.cons_append, List.dropLast_concat]
    rw [h1]
    simp only [h2]
    cases x with
    | none => simp [qualAdd, bind, Except.bind]
    | some y =>
      simp [qualAdd, bind, Except.bind]
      omega

mutual
theorem procDecl_spec (ev : Str → PVal) : (d : Decl) → DRes d.name (procDecl ev d)
  | .mk first conv ptrs ref core hasArgs args arrays => by
    have ha := procArgs_spec ev args
    have hc := procCore_spec ev ref core
    simp only [procDecl, Decl.name]
    have hbase : (levelQuals first conv ptrs arrays).length = 1 + (levelToks ev conv ptrs arrays).length :=
      level_length ev first conv ptrs arrays
    have hgood := levelToks_good ev conv ptrs arrays
    cases hp : procArgs ev args with
    | error e =>
      cases hasArgs with
      | true =>
        refine ⟨?_, ?_⟩
        · intro e' h; simp at h; subst h; exact ha.1 _ hp
        · intro n t q h; simp at h
      | false =>
        exact hc _ _ hbase ⟨first, _, rfl⟩ hgood
    | ok ps =>
      have hps := ha.2 _ hp
      cases hasArgs with
      | true =>
        refine hc _ _ ?_ ⟨first, _, rfl⟩ (hgood.append (.fn ps _ hps .nil))
        simp [hbase]; omega
      | false =>
        exact hc _ _ (by simpa using hbase) ⟨first, _, rfl⟩ (by simpa using hgood)
theorem procCore_spec (ev : Str → PVal) (ref : Bool) : (c : Core) → ∀ toks quals,
    List.length quals = 1 + List.length toks → (∃ q r, quals = some q :: r) → GoodMods toks →
    DRes c.dname (procCore ev ref c toks quals)
  | .name n, toks, quals, hl, hq, hg => by
    obtain ⟨q, r, rfl⟩ := hq
    refine ⟨by simp [procCore], ?_⟩
    intro n' t q' h
    simp only [procCore, Except.ok.injEq, Prod.mk.injEq] at h
    obtain ⟨rfl, rfl, rfl⟩ := h
    refine ⟨rfl, ?_, ⟨q, _, rfl⟩, ?_⟩
    · cases ref <;> simp at hl ⊢ <;> omega
    · cases ref
      · simpa using hg
      · exact hg.append (.sym _ _ .nil)
  | .abs, toks, quals, hl, hq, hg => by
    obtain ⟨q, r, rfl⟩ := hq
    refine ⟨by simp [procCore], ?_⟩
    intro n' t q' h
    simp only [procCore, Except.ok.injEq, Prod.mk.injEq] at h
    obtain ⟨rfl, rfl, rfl⟩ := h
    refine ⟨rfl, ?_, ⟨q, _, rfl⟩, ?_⟩
    · cases ref <;> simp at hl ⊢ <;> omega
    · cases ref
      · simpa using hg
      · exact hg.append (.sym _ _ .nil)
  | .center d, toks, quals, hl, hq, hg => by
    have hd := procDecl_spec ev d
    obtain ⟨q, r, rfl⟩ := hq
    simp only [procCore, Core.dname]
    cases hp : procDecl ev d with
    | error e =>
      refine ⟨?_, by simp⟩
      intro e' h; simp at h; subst h; exact hd.1 _ hp
    | ok x =>
      obtain ⟨n, t, qs⟩ := x
      obtain ⟨rfl, h2, ⟨q2, r2, rfl⟩, h4⟩ := hd.2 _ _ _ hp
      have hj := joinQuals_spec ((some q :: r) ++ if ref then [some []] else []) q2 r2 ⟨q, _, rfl⟩
      simp only
      cases hjq : joinQuals ((some q :: r) ++ if ref then [some []] else []) (some q2 :: r2) with
      | error e =>
        refine ⟨?_, by simp⟩
        intro e' h; simp at h; subst h; exact hj.1 _ hjq
      | ok o =>
        obtain ⟨j1, j2⟩ := hj.2 _ hjq
        refine ⟨by simp, ?_⟩
        intro n' t' q' h
        simp only [Except.ok.injEq, Prod.mk.injEq] at h
        obtain ⟨rfl, rfl, rfl⟩ := h
        refine ⟨rfl, ?_, j2, ?_⟩
        · rw [j1]
          simp only [List.length_cons] at h2 hl
          cases ref <;> simp <;> omega
        · refine GoodMods.append ?_ h4
          cases ref
          · simpa using hg
          · exact hg.append (.sym _ _ .nil)
theorem procArgs_spec (ev : Str → PVal) : (a : ArgList) →
    (∀ e, procArgs ev a = .error e → e = .typeError) ∧ ∀ ps, procArgs ev a = .ok ps → GoodParams ps
  | .nil => by simp [procArgs]; exact .nil
  | .cons tq tn d val rest => by
    have hd := procDecl_spec ev d
    have hr := procArgs_spec ev rest
    simp only [procArgs]
    cases hp : procDecl ev d with
    | error e =>
      refine ⟨?_, by simp⟩
      intro e' h; simp at h; subst h; exact hd.1 _ hp
    | ok x =>
      obtain ⟨n, t, qs⟩ := x
      obtain ⟨rfl, h2, ⟨q2, r2, rfl⟩, h4⟩ := hd.2 _ _ _ hp
      simp only
      rw [typeOf_ok tq tn t q2 r2 h2]
      simp only
      cases hpr : procArgs ev rest with
      | error e =>
        refine ⟨?_, by simp⟩
        intro e' h; simp at h; subst h; exact hr.1 _ hpr
      | ok ps =>
        refine ⟨by simp, ?_⟩
        intro ps' h
        simp only [Except.ok.injEq] at h
        subst h
        refine .cons _ _ _ _ ?_ h4 (hr.2 _ hpr)
        simpa [QualsMatch] using h2
end

/-! ### Success -/

/-- `r` is a success. -/
def IsOk {α : Type} (r : Except PyErr α) : Prop := ∃ a, r = .ok a

theorem joinQuals_isOk (pq : List Qual) (q : List Str) (r : List Qual) (a : List Str)
    (hp : pq.getLast? = some (some a)) : IsOk (joinQuals pq (some q :: r)) := by
  simp [joinQuals, hp, qualAdd, IsOk, bind, Except.bind]

theorem levelQuals_last (first : List Str) (conv : Option Str) (ptrs : List (List Str)) (arrays : List Str)
    (h : conv = none ∨ ptrs ≠ [] ∨ arrays ≠ []) :
    ∃ a, (levelQuals first conv ptrs arrays).getLast? = some (some a) := by
  unfold levelQuals
  by_cases ha : arrays = []
  · subst ha
    by_cases hp : ptrs = []
    · subst hp
      rcases h with rfl | h | h
      · exact ⟨first, rfl⟩
      · exact (h rfl).elim
      · exact (h rfl).elim
    · cases hl : ptrs.getLast? with
      | none => rw [List.getLast?_eq_none_iff] at hl; exact (hp hl).elim
      | some x =>
        obtain ⟨ps, rfl⟩ := List.getLast?_eq_some_iff.1 hl
        refine ⟨x, ?_⟩
        simp [List.getLast?_cons, List.getLast?_append]
  · cases hl : arrays.getLast? with
    | none => rw [List.getLast?_eq_none_iff] at hl; exact (ha hl).elim
    | some x =>
      obtain ⟨ps, rfl⟩ := List.getLast?_eq_some_iff.1 hl
      refine ⟨[], ?_⟩
      simp [List.getLast?_cons, List.getLast?_append]

mutual
theorem procDecl_ok (ev : Str → PVal) : (d : Decl) → d.ConvOk → IsOk (procDecl ev d)
  | .mk first conv ptrs ref core hasArgs args arrays, h => by
    obtain ⟨_, h1, h2, h3⟩ := h
    simp only [procDecl]
    have hc := procCore_ok ev ref core h2
    cases hasArgs with
    | false =>
      have : IsOk (procCore ev ref core (levelToks ev conv ptrs arrays) (levelQuals first conv ptrs arrays)) := by
        apply hc
        intro hcen
        cases ref with
        | true => exact ⟨[], by simp⟩
        | false =>
          simp [hcen] at h1
          obtain ⟨a, ha⟩ := levelQuals_last first conv ptrs arrays h1
          exact ⟨a, by simpa using ha⟩
      cases procArgs ev args <;> simpa using this
    | true =>
      obtain ⟨ps, hps⟩ := procArgs_ok ev args (h3 rfl)
      rw [hps]
      simp only [if_true]
      apply hc
      intro _
      cases ref <;> exact ⟨[], by simp⟩
theorem procCore_ok (ev : Str → PVal) (ref : Bool) : (c : Core) → c.ConvOk → ∀ toks quals,
    (c.isCenter = true → ∃ a, (quals ++ if ref then [some []] else []).getLast? = some (some a)) →
    IsOk (procCore ev ref c toks quals)
  | .name n, _, toks, quals, _ => ⟨_, rfl⟩
  | .abs, _, toks, quals, _ => ⟨_, rfl⟩
  | .center d, h, toks, quals, hq => by
    obtain ⟨⟨n, t, q⟩, hd⟩ := procDecl_ok ev d h
    obtain ⟨_, _, ⟨q2, r2, rfl⟩, _⟩ := (procDecl_spec ev d).2 _ _ _ hd
    obtain ⟨a, ha⟩ := hq rfl
    obtain ⟨o, ho⟩ := joinQuals_isOk _ q2 r2 a ha
    simp only [procCore, hd, ho]
    exact ⟨_, rfl⟩
theorem procArgs_ok (ev : Str → PVal) : (a : ArgList) → a.ConvOk → IsOk (procArgs ev a)
  | .nil, _ => ⟨_, rfl⟩
  | .cons tq tn d val rest, h => by
    obtain ⟨⟨n, t, q⟩, hd⟩ := procDecl_ok ev d h.1
    obtain ⟨_, h2, ⟨q2, r2, rfl⟩, _⟩ := (procDecl_spec ev d).2 _ _ _ hd
    obtain ⟨ps, hps⟩ := procArgs_ok ev rest h.2
    simp only [procArgs, hd, typeOf_ok tq tn t q2 r2 h2, hps]
    exact ⟨_, rfl⟩
end

/-! ### Meaning -/

/-- Does not start with an array modifier. -/
def NoArrHead (ms : List CMod) : Prop := ∀ l, ms.head? ≠ some (.arr l)

theorem den_ptrs (ptrs : List (List Str)) (t : CTy) (ms : List CMod) (u : CTy)
    (h : DenMods (ptrsTo ptrs.length t) ms u) :
    DenMods t (ptrs.map (fun _ => CMod.sym c%"*") ++ ms) u := by
  induction ptrs generalizing t with
  | nil => exact h
  | cons p ps ih => exact .ptr _ _ _ (ih (.ptr t) h)

theorem den_arrs (ev : Str → PVal) (arrays : List Str) (t : CTy) (ms : List CMod) (u : CTy)
    (hm : arrays ≠ [] → NoArrHead ms) (h : DenMods (arrsOf (arrays.map fun x => (ev x).dim) t) ms u) :
    DenMods t (arrays.map (fun x => CMod.arr [(ev x).dim]) ++ ms) u := by
  cases arrays with
  | nil => exact h
  | cons a as =>
    have := DenMods.arrs (ev a).dim (as.map fun x => (ev x).dim) t ms u (hm (by simp)) h
    simpa [List.map_map, Function.comp_def] using this

theorem den_level (ev : Str → PVal) (conv : Option Str) (ptrs : List (List Str)) (arrays : List Str)
    (hconv : ∀ c, conv = some c → c = c%"__cdecl" ∨ c = c%"__stdcall") (t : CTy) (ms : List CMod) (u : CTy)
    (hm : arrays ≠ [] → NoArrHead ms)
    (h : DenMods (arrsOf (arrays.map fun x => (ev x).dim) (ptrsTo ptrs.length t)) ms u) :
    DenMods t (levelToks ev conv ptrs arrays ++ ms) u := by
  have h1 := den_ptrs ptrs t _ u (den_arrs ev arrays _ ms u hm h)
  cases conv with
  | none => simpa [levelToks] using h1
  | some c =>
    have hc : c ≠ c%"*" ∧ c ≠ c%"&" := by
      rcases hconv c rfl with rfl | rfl <;> decide
    have := DenMods.conv c t _ u hc h1
    simpa [levelToks] using this

theorem noArrHead_append {a b : List CMod} (ha : NoArrHead a) (hb : a = [] → NoArrHead b) : NoArrHead (a ++ b) := by
  cases a with
  | nil => exact hb rfl
  | cons m a => intro l; exact ha l

mutual
theorem starts_decl (ev : Str → PVal) : (d : Decl) → ∀ n toks quals, procDecl ev d = .ok (n, toks, quals) →
    d.startsArr = false → NoArrHead toks
  | .mk first conv ptrs ref core hasArgs args arrays, n, toks, quals, h, hs => by
    have hc := starts_core ev ref core
    have key : ∀ (extra : List CMod) (qx : List Qual) (n toks quals),
        procCore ev ref core (levelToks ev conv ptrs arrays ++ extra) qx = .ok (n, toks, quals) →
        (hasArgs = true → ∃ ps, extra = [.fn ps]) → (hasArgs = false → extra = []) → NoArrHead toks := by
      intro extra qx n toks quals h h1 h2
      obtain ⟨t, rfl, ht⟩ := hc _ _ _ _ _ h
      cases conv with
      | some c => intro l; simp [levelToks]
      | none =>
        cases ptrs with
        | cons p ps => intro l; simp [levelToks]
        | nil =>
          simp [Decl.startsArr] at hs
          obtain ⟨rfl, hs⟩ := hs
          cases hasArgs with
          | true =>
            obtain ⟨ps, rfl⟩ := h1 rfl
            intro l; simp [levelToks]
          | false =>
            rw [h2 rfl]
            cases ref with
            | true => intro l; simp [levelToks]
            | false =>
              have := ht (hs rfl rfl)
              simpa [levelToks] using this
    simp only [procDecl] at h
    cases hp : procArgs ev args with
    | error e =>
      rw [hp] at h
      cases hasArgs with
      | true => simp at h
      | false =>
        simp only [Bool.false_eq_true, if_false] at h
        exact key [] _ n toks quals (by simpa using h) (by simp) (by simp)
    | ok ps =>
      rw [hp] at h
      cases hasArgs with
      | true => exact key [.fn ps] _ n toks quals h (fun _ => ⟨ps, rfl⟩) (by simp)
      | false => exact key [] _ n toks quals h (by simp) (by simp)
theorem starts_core (ev : Str → PVal) (ref : Bool) : (c : Core) → ∀ toks quals n toks' quals',
    procCore ev ref c toks quals = .ok (n, toks', quals') →
    ∃ t, toks' = toks ++ (if ref then [CMod.sym c%"&"] else []) ++ t ∧ (c.startsArr = false → NoArrHead t)
  | .name n, toks, quals, _, _, _, h => by
    simp only [procCore, Except.ok.injEq, Prod.mk.injEq] at h
    obtain ⟨_, rfl, _⟩ := h
    exact ⟨[], by simp, fun _ l => by simp⟩
  | .abs, toks, quals, _, _, _, h => by
    simp only [procCore, Except.ok.injEq, Prod.mk.injEq] at h
    obtain ⟨_, rfl, _⟩ := h
    exact ⟨[], by simp, fun _ l => by simp⟩
  | .center d, toks, quals, _, _, _, h => by
    have hd := starts_decl ev d
    simp only [procCore] at h
    cases hp : procDecl ev d with
    | error e => rw [hp] at h; simp at h
    | ok x =>
      obtain ⟨n, t, q⟩ := x
      rw [hp] at h
      simp only at h
      split at h
      · cases h
      · simp only [Except.ok.injEq, Prod.mk.injEq] at h
        obtain ⟨_, rfl, _⟩ := h
        exact ⟨t, rfl, fun hs => hd _ _ _ hp hs⟩
end

mutual
theorem den_decl (ev : Str → PVal) : (d : Decl) → d.ConvOk → d.ArrOk → ∀ n toks quals,
    procDecl ev d = .ok (n, toks, quals) → ∀ t ms u, NoArrHead ms →
    DenMods (d.cty (fun x => (ev x).dim) t) ms u → DenMods t (toks ++ ms) u
  | .mk first conv ptrs ref core hasArgs args arrays, hco, hao, n, toks, quals, h, t, ms, u, hm, hd => by
    obtain ⟨c1, _, c3, c4⟩ := hco
    obtain ⟨a1, a2, a3, a4⟩ := hao
    have hc := den_core ev ref core c3 a3
    simp only [Decl.cty] at hd
    -- the level without parameters
    have noargs : ∀ qx, hasArgs = false → procCore ev ref core (levelToks ev conv ptrs arrays) qx = .ok (n, toks, quals) →
        DenMods t (toks ++ ms) u := by
      intro qx hf hcore
      obtain ⟨t', rfl, ht'⟩ := hc _ _ _ _ _ hcore
      subst hf
      simp only [Bool.false_eq_true, if_false] at hd
      have h2 := (ht' (if ref then CTy.ref (ptrsTo ptrs.length t) else ptrsTo ptrs.length t) ms u hm)
      have hs := starts_core ev ref core _ _ _ _ _ hcore
      obtain ⟨t'', e, hs⟩ := hs
      have : t'' = t' := by simpa using e.symm
      subst this
      cases ref with
      | true =>
        obtain ⟨_, rfl⟩ := a2 rfl
        simp only [if_true, List.map_nil, arrsOf] at hd h2 ⊢
        have h3 := DenMods.ref _ _ _ (h2 hd)
        have := den_level ev conv ptrs [] c1 t (.sym c%"&" :: (t'' ++ ms)) u (by simp) h3
        simpa using this
      | false =>
        simp only [Bool.false_eq_true, if_false, List.append_nil] at hd ⊢
        rw [List.append_assoc]
        apply den_level ev conv ptrs arrays c1
        · intro hne
          exact noArrHead_append (hs (a1 hne rfl)) (fun _ => hm)
        · exact ht' _ ms u hm hd
    simp only [procDecl] at h
    cases hp : procArgs ev args with
    | error e =>
      rw [hp] at h
      cases hasArgs with
      | true => simp at h
      | false => exact noargs _ rfl (by simpa using h)
    | ok ps =>
      rw [hp] at h
      cases hasArgs with
      | false => exact noargs _ rfl (by simpa using h)
      | true =>
        have href : ref = false := by
          cases ref with
          | false => rfl
          | true => exact absurd (a2 rfl).1 (by simp)
        subst href
        simp only [if_true] at h hd
        obtain ⟨t', rfl, ht'⟩ := hc _ _ _ _ _ h
        simp only [Bool.false_eq_true, if_false, List.append_nil] at hd ⊢
        have h2 := ht' _ ms u hm hd
        have h3 := DenMods.fn ps _ _ _ _ (den_args ev args (c4 rfl) (a4 rfl) ps hp) h2
        have := den_level ev conv ptrs arrays c1 t (.fn ps :: (t' ++ ms)) u (fun _ l => by simp) h3
        simpa using this
theorem den_core (ev : Str → PVal) (ref : Bool) : (c : Core) → c.ConvOk → c.ArrOk → ∀ toks quals n toks' quals',
    procCore ev ref c toks quals = .ok (n, toks', quals') →
    ∃ t', toks' = toks ++ (if ref then [CMod.sym c%"&"] else []) ++ t' ∧ ∀ t ms u, NoArrHead ms →
      DenMods (c.cty (fun x => (ev x).dim) t) ms u → DenMods t (t' ++ ms) u
  | .name n, _, _, toks, quals, _, _, _, h => by
    simp only [procCore, Except.ok.injEq, Prod.mk.injEq] at h
    obtain ⟨_, rfl, _⟩ := h
    exact ⟨[], by simp, fun t ms u _ h => h⟩
  | .abs, _, _, toks, quals, _, _, _, h => by
    simp only [procCore, Except.ok.injEq, Prod.mk.injEq] at h
    obtain ⟨_, rfl, _⟩ := h
    exact ⟨[], by simp, fun t ms u _ h => h⟩
  | .center d, hco, hao, toks, quals, _, _, _, h => by
    have hd := den_decl ev d hco hao
    simp only [procCore] at h
    cases hp : procDecl ev d with
    | error e => rw [hp] at h; simp at h
    | ok x =>
      obtain ⟨n, t, q⟩ := x
      rw [hp] at h
      simp only at h
      split at h
      · cases h
      · simp only [Except.ok.injEq, Prod.mk.injEq] at h
        obtain ⟨_, rfl, _⟩ := h
        exact ⟨t, rfl, fun t0 ms u hm hh => hd _ _ _ hp t0 ms u hm hh⟩
theorem den_args (ev : Str → PVal) : (a : ArgList) → a.ConvOk → a.ArrOk → ∀ ps, procArgs ev a = .ok ps →
    DenParams ps (a.ctys fun x => (ev x).dim)
  | .nil, _, _, ps, h => by
    simp only [procArgs, Except.ok.injEq] at h
    subst h; exact .nil
  | .cons tq tn d val rest, hco, hao, ps, h => by
    have hd := den_decl ev d hco.1 hao.1
    have hr := den_args ev rest hco.2 hao.2
    simp only [procArgs] at h
    cases hp : procDecl ev d with
    | error e => rw [hp] at h; simp at h
    | ok x =>
      obtain ⟨n, t, q⟩ := x
      obtain ⟨rfl, h2, ⟨q2, r2, rfl⟩, _⟩ := (procDecl_spec ev d).2 _ _ _ hp
      rw [hp] at h
      simp only at h
      rw [typeOf_ok tq tn t q2 r2 h2] at h
      simp only at h
      cases hpr : procArgs ev rest with
      | error e => rw [hpr] at h; simp at h
      | ok ps' =>
        rw [hpr] at h
        simp only [Except.ok.injEq] at h
        subst h
        refine .cons _ _ _ _ _ _ ?_ (hr _ hpr)
        have := hd _ _ _ hp (.base tn) [] _ (fun l => by simp) (.nil _)
        simpa using this
end

end Pyclib
