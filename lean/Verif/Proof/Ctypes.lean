import Verif.Proof.Types
import Verif.Props.Types
import Verif.Spec.Ctypes
/-
Lemmas about the ctypes backend.
-/
namespace Pyclib
open Spec

theorem mem_idsOf {l : List CMod} {i : Int} : i ∈ idsOf l ↔ .arr [some i] ∈ l := by
  unfold idsOf
  rw [List.mem_filterMap]
  constructor
  · rintro ⟨m, hm, h⟩
    split at h
    · simp at h; subst h; exact hm
    · cases h
  · intro h
    exact ⟨_, h, rfl⟩

theorem idsOf_append (a b : List CMod) : idsOf (a ++ b) = idsOf a ++ idsOf b := List.filterMap_append

theorem idsOf_arr (i : Int) (l : List CMod) : idsOf (.arr [some i] :: l) = i :: idsOf l := rfl

theorem idsOf_map (is : List Int) : idsOf (is.map fun i => .arr [some i]) = is := by
  induction is with
  | nil => rfl
  | cons i is ih => rw [List.map_cons, idsOf_arr, ih]

theorem noAdj_tail {m : CMod} {l : List CMod} (h : NoAdj (m :: l)) : NoAdj l := by
  intro a b x y hl
  exact h a b (m :: x) y (by rw [hl]; rfl)

theorem noAdj_prefix {a b : List CMod} (h : NoAdj (a ++ b)) : NoAdj a := by
  intro c d x y hl
  exact h c d x (y ++ b) (by rw [hl]; simp)

theorem noAdj_head {a : List (Option Int)} {l : List CMod} (h : NoAdj (.arr a :: l)) : ∀ b, l.head? ≠ some (.arr b) := by
  intro b hb
  cases l with
  | nil => cases hb
  | cons m l =>
    simp at hb; subst hb
    exact h a b [] l rfl

/-! ### Merging -/

/-- The merged list `mm` stands for `l` when the heap is `h`. -/
inductive Merged (dim : Int → Option Int) (h : Int → List (Option Int)) : List CMod → List CMod → Prop
  | nil : Merged dim h [] []
  | other (m : CMod) (mm l : List CMod) (hm : ∀ d, m ≠ .arr d) (hr : Merged dim h mm l) : Merged dim h (m :: mm) (m :: l)
  | run (i : Int) (is : List Int) (mm l : List CMod) (hi : h i = (i :: is).map dim)
      (hl : ∀ d, l.head? ≠ some (.arr d)) (hr : Merged dim h mm l) :
      Merged dim h (.arr [some i] :: mm) ((i :: is).map (fun i => .arr [some i]) ++ l)

theorem Merged.heap {dim : Int → Option Int} {h h' : Int → List (Option Int)} {mm l : List CMod}
    (hm : Merged dim h mm l) (hh : ∀ i ∈ idsOf l, h' i = h i) : Merged dim h' mm l := by
  induction hm with
  | nil => exact .nil
  | other m mm l hm hr ih =>
    refine .other m mm l hm (ih fun i hi => hh i ?_)
    rw [mem_idsOf] at hi ⊢; exact List.mem_cons_of_mem _ hi
  | run i is mm l hi hl hr ih =>
    refine .run i is mm l ?_ hl (ih fun j hj => hh j ?_)
    · rw [hh i (by rw [mem_idsOf]; simp), hi]
    · rw [mem_idsOf] at hj ⊢; exact List.mem_append_right _ hj

/-- `mergeLoop` with a pending modifier that is not an array. -/
theorem mergeLoop_other (h : Int → List (Option Int)) (seen m : CMod) (ms : List CMod)
    (hs : ∀ d, seen ≠ .arr d) : mergeLoop h seen (m :: ms) = (seen :: (mergeLoop h m ms).1, (mergeLoop h m ms).2) := by
  cases seen with
  | arr d => exact (hs d rfl).elim
  | sym s => rfl
  | fn ps => rfl

theorem mergeLoop_next (h : Int → List (Option Int)) (seen m : CMod) (ms : List CMod)
    (hs : ∀ d, m ≠ .arr d) : mergeLoop h seen (m :: ms) = (seen :: (mergeLoop h m ms).1, (mergeLoop h m ms).2) := by
  rw [mergeLoop.eq_def]
  simp only
  split
  · rename_i j; exact (hs _ rfl).elim
  · rfl

theorem mergeLoop_arr (h : Int → List (Option Int)) (i j : Int) (ms : List CMod) :
    mergeLoop h (.arr [some i]) (.arr [some j] :: ms) =
      mergeLoop (fun k => if k = i then h i ++ h j else h k) (.arr [some i]) ms := rfl

theorem mergeLoop_spec (dim : Int → Option Int) (ms : List CMod) : ∀ (h : Int → List (Option Int)) (seen : CMod),
    Refs (seen :: ms) → (idsOf (seen :: ms)).Nodup → Clean dim h ms →
    ((∀ d, seen ≠ .arr d) → Merged dim (mergeLoop h seen ms).2 (mergeLoop h seen ms).1 (seen :: ms)) ∧
    (∀ i is, seen = .arr [some i] → h i = (i :: is).map dim →
      Merged dim (mergeLoop h seen ms).2 (mergeLoop h seen ms).1 ((i :: is).map (fun i => .arr [some i]) ++ ms)) ∧
    (∀ k, k ∉ idsOf (seen :: ms) → (mergeLoop h seen ms).2 k = h k) ∧
    (NoAdj (seen :: ms) → (mergeLoop h seen ms).2 = h) := by
  induction ms with
  | nil =>
    intro h seen hr hn hc
    refine ⟨fun hs => .other _ _ _ hs .nil, ?_, fun k _ => rfl, fun _ => rfl⟩
    intro i is hs hi
    subst hs
    exact .run i is [] [] hi (by simp) .nil
  | cons m ms ih =>
    intro h seen hr hn hc
    have hr' : Refs (m :: ms) := fun d hd => hr d (List.mem_cons_of_mem _ hd)
    have hn' : (idsOf (m :: ms)).Nodup := by
      have : idsOf (seen :: m :: ms) = idsOf [seen] ++ idsOf (m :: ms) := idsOf_append [seen] (m :: ms)
      rw [this] at hn
      exact (List.nodup_append.1 hn).2.1
    have hc' : Clean dim h ms := by
      intro i hi
      apply hc
      rw [mem_idsOf] at hi ⊢
      exact List.mem_cons_of_mem _ hi
    have sub : ∀ k, k ∉ idsOf (seen :: m :: ms) → k ∉ idsOf (m :: ms) := by
      intro k hk hk'
      rw [mem_idsOf] at hk hk'
      exact hk (List.mem_cons_of_mem _ hk')
    -- the pending modifier is emitted and `m` becomes pending
    have key : Merged dim (mergeLoop h m ms).2 (mergeLoop h m ms).1 (m :: ms) ∧
        (∀ k, k ∉ idsOf (m :: ms) → (mergeLoop h m ms).2 k = h k) ∧
        (NoAdj (m :: ms) → (mergeLoop h m ms).2 = h) := by
      obtain ⟨i1, i2, i3, i4⟩ := ih h m hr' hn' hc'
      refine ⟨?_, i3, i4⟩
      cases m with
      | arr d =>
        obtain ⟨j, rfl⟩ := hr' d (by simp)
        exact i2 j [] rfl (hc j (by rw [mem_idsOf]; simp))
      | sym s => exact i1 (by simp)
      | fn ps => exact i1 (by simp)
    by_cases hs : ∀ d, seen ≠ .arr d
    · rw [mergeLoop_other h seen m ms hs]
      refine ⟨fun _ => .other _ _ _ hs key.1, ?_, fun k hk => key.2.1 k (sub k hk), fun ha => key.2.2 (noAdj_tail ha)⟩
      intro i is hi
      exact (hs _ hi).elim
    · have hs' : ∃ d, seen = .arr d := by
        cases seen with
        | arr d => exact ⟨d, rfl⟩
        | sym s => exact (hs (by simp)).elim
        | fn ps => exact (hs (by simp)).elim
      obtain ⟨d, rfl⟩ := hs'
      obtain ⟨i, rfl⟩ := hr d (by simp)
      refine ⟨fun hs => (hs _ rfl).elim, ?_⟩
      by_cases hm : ∀ d, m ≠ .arr d
      · rw [mergeLoop_next h _ m ms hm]
        refine ⟨?_, fun k hk => key.2.1 k (sub k hk), fun ha => key.2.2 (noAdj_tail ha)⟩
        intro i' is hi' hh
        simp at hi'; subst hi'
        refine .run i is _ _ ?_ ?_ key.1
        · simp only
          rw [key.2.1 i ?_, hh]
          intro hi
          rw [idsOf_arr] at hn
          exact (List.nodup_cons.1 hn).1 hi
        · intro d hd
          simp at hd
          exact hm d hd
      · have hm' : ∃ j, m = .arr [some j] := by
          cases m with
          | arr d => obtain ⟨j, rfl⟩ := hr' d (by simp); exact ⟨j, rfl⟩
          | sym s => exact (hm (by simp)).elim
          | fn ps => exact (hm (by simp)).elim
        obtain ⟨j, rfl⟩ := hm'
        rw [mergeLoop_arr]
        rw [idsOf_arr, idsOf_arr] at hn
        have hij : i ∉ j :: idsOf ms := (List.nodup_cons.1 hn).1
        have hjm := List.nodup_cons.1 (List.nodup_cons.1 hn).2
        obtain ⟨i1, i2, i3, i4⟩ := ih (fun k => if k = i then h i ++ h j else h k) (.arr [some i])
          (by
            intro d hd
            apply hr d
            rcases List.mem_cons.1 hd with hd | hd
            · rw [hd]; simp
            · exact List.mem_cons_of_mem _ (List.mem_cons_of_mem _ hd))
          (by
            rw [idsOf_arr]
            refine List.nodup_cons.2 ⟨?_, hjm.2⟩
            exact fun h => hij (List.mem_cons_of_mem _ h))
          (by
            intro k hk
            have : k ≠ i := by
              intro e; subst e
              exact hij (List.mem_cons_of_mem _ hk)
            simp only [this, if_false]
            exact hc' k hk)
        refine ⟨?_, ?_, ?_⟩
        · intro i' is hi' hh
          simp at hi'; subst hi'
          have := i2 i (is ++ [j]) rfl (by
            simp only [if_pos]
            rw [hh, hc j (by rw [mem_idsOf]; simp)]
            simp)
          simpa using this
        · intro k hk
          have hk1 : k ≠ i := by
            intro e; subst e
            apply hk; rw [idsOf_arr]; simp
          rw [i3 k ?_]
          · simp [hk1]
          · intro hk2
            apply hk
            rw [idsOf_arr] at hk2
            rw [idsOf_arr, idsOf_arr]
            rcases List.mem_cons.1 hk2 with e | e
            · exact (hk1 e).elim
            · simp [e]
        · intro ha
          exact (ha _ _ [] ms rfl).elim

theorem mergeMods_spec (dim : Int → Option Int) (ms : List CMod) (h : Int → List (Option Int))
    (hr : Refs ms) (hn : (idsOf ms).Nodup) (hc : Clean dim h ms) :
    Merged dim (mergeMods h ms).2 (mergeMods h ms).1 ms ∧ (∀ k, k ∉ idsOf ms → (mergeMods h ms).2 k = h k) ∧
    (NoAdj ms → (mergeMods h ms).2 = h) := by
  cases ms with
  | nil => exact ⟨.nil, fun _ _ => rfl, fun _ => rfl⟩
  | cons m ms =>
    have hc' : Clean dim h ms := by
      intro i hi
      apply hc
      rw [mem_idsOf] at hi ⊢
      exact List.mem_cons_of_mem _ hi
    obtain ⟨i1, i2, i3, i4⟩ := mergeLoop_spec dim ms h m hr hn hc'
    refine ⟨?_, i3, i4⟩
    cases m with
    | arr d =>
      obtain ⟨j, rfl⟩ := hr d (by simp)
      exact i2 j [] rfl (hc j (by rw [mem_idsOf]; simp))
    | sym s => exact i1 (by simp)
    | fn ps => exact i1 (by simp)

theorem merged_prepend {dim : Int → Option Int} {h : Int → List (Option Int)} (pre : List CMod) {mm l : List CMod}
    (hp : NoAdj (pre ++ l.take 1)) (hr : Refs pre) (hc : Clean dim h pre) (hm : Merged dim h mm l) :
    Merged dim h (pre ++ mm) (pre ++ l) := by
  induction pre with
  | nil => exact hm
  | cons m pre ih =>
    have ih' := ih (noAdj_tail hp) (fun d hd => hr d (List.mem_cons_of_mem _ hd))
      (fun i hi => hc i (by rw [mem_idsOf] at hi ⊢; exact List.mem_cons_of_mem _ hi))
    by_cases hs : ∀ d, m ≠ .arr d
    · exact .other _ _ _ hs ih'
    · have : ∃ d, m = .arr d := by
        cases m with
        | arr d => exact ⟨d, rfl⟩
        | sym s => exact (hs (by simp)).elim
        | fn ps => exact (hs (by simp)).elim
      obtain ⟨d, rfl⟩ := this
      obtain ⟨i, rfl⟩ := hr d (by simp)
      refine .run i [] _ _ (hc i (by rw [mem_idsOf]; simp)) ?_ ih'
      intro b hb
      refine noAdj_head hp b ?_
      cases pre with
      | nil => cases l with
        | nil => cases hb
        | cons x l => simpa using hb
      | cons x pre => simpa using hb

theorem mergeMods_cons (h : Int → List (Option Int)) (m : CMod) (l : List CMod)
    (hs : (∀ d, m ≠ .arr d) ∨ ∀ d, l.head? ≠ some (.arr d)) :
    mergeMods h (m :: l) = (m :: (mergeMods h l).1, (mergeMods h l).2) := by
  cases l with
  | nil => rfl
  | cons x l =>
    rcases hs with hs | hs
    · exact mergeLoop_other h m x l hs
    · exact mergeLoop_next h m x l (fun d hd => hs d (by rw [hd]; rfl))

theorem mergeMods_prepend (h : Int → List (Option Int)) (pre l : List CMod) (hp : NoAdj (pre ++ l.take 1)) :
    mergeMods h (pre ++ l) = (pre ++ (mergeMods h l).1, (mergeMods h l).2) := by
  induction pre with
  | nil => rfl
  | cons m pre ih =>
    have ih' := ih (noAdj_tail hp)
    rw [List.cons_append, mergeMods_cons, ih']
    · rfl
    · by_cases hs : ∀ d, m ≠ .arr d
      · exact .inl hs
      · right
        have : ∃ d, m = .arr d := by
          cases m with
          | arr d => exact ⟨d, rfl⟩
          | sym s => exact (hs (by simp)).elim
          | fn ps => exact (hs (by simp)).elim
        obtain ⟨d, rfl⟩ := this
        intro b hb
        refine noAdj_head hp b ?_
        cases pre with
        | nil => cases l with
          | nil => cases hb
          | cons x l => simpa using hb
        | cons x pre => simpa using hb

/-! ### Meaning of resolved types -/

section
variable {cfg : Cfg} {tm : Dict Str CType} {dim : Int → Option Int}

theorem meansMods_append {b : CTy} {ms ms' : List CMod} {v w : CTy} (h : MeansMods cfg tm dim b ms v)
    (hj : NoAdj (ms ++ ms'.take 1) ∨ (∀ d, ms'.head? ≠ some (.arr d))) (h' : MeansMods cfg tm dim v ms' w) :
    MeansMods cfg tm dim b (ms ++ ms') w := by
  have tl : ∀ m (ms : List CMod), (NoAdj (m :: ms ++ ms'.take 1) ∨ (∀ d, ms'.head? ≠ some (.arr d))) →
      (NoAdj (ms ++ ms'.take 1) ∨ (∀ d, ms'.head? ≠ some (.arr d))) := by
    intro m ms hj
    exact hj.imp noAdj_tail id
  refine MeansMods.rec (motive_1 := fun b ms v _ => (NoAdj (ms ++ ms'.take 1) ∨ (∀ d, ms'.head? ≠ some (.arr d))) →
      MeansMods cfg tm dim v ms' w → MeansMods cfg tm dim b (ms ++ ms') w)
    (motive_2 := fun _ _ _ => True) (motive_3 := fun _ _ _ => True) ?_ ?_ ?_ ?_ ?_ ?_ ?_ ?_ ?_ ?_ h hj h'
  · intro b _ h'; exact h'
  · intro b ms v _ ih hj h'; exact .ptr _ _ _ (ih (tl _ _ hj) h')
  · intro b ms v _ ih hj h'; exact .ref _ _ _ (ih (tl _ _ hj) h')
  · intro c b ms v hc _ ih hj h'; exact .conv _ _ _ _ hc (ih (tl _ _ hj) h')
  · intro i is b ms v hm _ ih hj h'
    rw [List.append_assoc]
    have hj' : NoAdj (ms ++ ms'.take 1) ∨ (∀ d, ms'.head? ≠ some (.arr d)) := by
      rcases hj with hj | hj
      · left
        intro a b x y hl
        refine hj a b ((i :: is).map (fun i => .arr [some i]) ++ x) y ?_
        rw [List.append_assoc, hl, List.append_assoc]
      · exact .inr hj
    refine .arrs _ _ _ _ _ ?_ (ih hj' h')
    intro l hl
    cases ms with
    | cons m ms => exact hm l hl
    | nil =>
      simp only [List.nil_append] at hl
      rcases hj with hj | hj
      · -- the last array of the run and the head of `ms'` are adjacent
        cases ms' with
        | nil => cases hl
        | cons x ms' =>
          simp at hl; subst hl
          have hne : (i :: is) ≠ [] := by simp
          have hd := List.dropLast_append_getLast hne
          refine hj [some ((i :: is).getLast hne)] l (((i :: is).dropLast).map (fun i => .arr [some i])) [] ?_
          have : (i :: is).map (fun i => CMod.arr [some i]) =
              ((i :: is).dropLast).map (fun i => CMod.arr [some i]) ++ [.arr [some ((i :: is).getLast hne)]] := by
            conv => lhs; rw [← hd, List.map_append]
            rfl
          rw [this]
          simp
      · exact hj l hl
  · intro ps cs b ms v hp _ _ ih hj h'; exact .fn _ _ _ _ _ hp (ih (tl _ _ hj) h')
  all_goals intros; trivial

/-- The modifiers a resolution adds in front come from typedefs. -/
theorem resolves_pre {t r : CType} (h : Resolves cfg tm t r) :
    ∃ pre, r.mods = pre ++ t.mods ∧ ∀ m ∈ pre, ∃ s pt, dget tm s = some pt ∧ m ∈ pt.mods := by
  induction h with
  | base hf => exact ⟨[], rfl, by simp⟩
  | @step t pt t' r hf hd hs _ ih =>
    obtain ⟨pre, h1, h2⟩ := ih
    obtain ⟨qs, a, b, rest, _, _, rfl⟩ := hs
    refine ⟨pre ++ pt.mods, by rw [h1]; simp, ?_⟩
    intro m hm
    rcases List.mem_append.1 hm with hm | hm
    · exact h2 m hm
    · exact ⟨_, pt, hd, hm⟩

/-- What a type means is what its resolution means, if no array bracket of a declarator meets one of the
typedef it is based on. -/
theorem means_resolves {t r : CType} (h : Resolves cfg tm t r) (pre : List CMod) (hpre : r.mods = pre ++ t.mods)
    (hj : NoAdj (pre ++ t.mods.take 1)) (v : CTy) (hv : Means cfg tm dim t v) :
    MeansMods cfg tm dim (.base (dropSigned r.spec)) r.mods v := by
  induction h generalizing pre with
  | base hf =>
    cases hv with
    | fund _ _ _ h => exact h
    | typedef _ _ _ _ hf' => exact (hf' hf).elim
  | @step t pt t' r hf hd hs hr ih =>
    obtain ⟨pre', h1, h2⟩ := resolves_pre hr
    obtain ⟨qs, a, b, rest, _, _, rfl⟩ := hs
    simp only at h1 ih
    have hpe : pre = pre' ++ pt.mods := by
      rw [h1, ← List.append_assoc] at hpre
      exact (List.append_cancel_right hpre).symm
    subst hpe
    refine ih pre' h1 ?_ ?_
    · cases hm : pt.mods with
      | nil => rw [hm] at hj; simpa using hj
      | cons m ms =>
        rw [hm] at hj
        simp only [List.cons_append, List.take_succ_cons, List.take_zero]
        have : pre' ++ m :: ms ++ List.take 1 t.mods = (pre' ++ [m]) ++ (ms ++ List.take 1 t.mods) := by simp
        rw [this] at hj
        exact noAdj_prefix hj
    · have hj2 : NoAdj (pt.mods ++ t.mods.take 1) := by
        intro a b x y hl
        refine hj a b (pre' ++ x) y ?_
        rw [List.append_assoc, hl, List.append_assoc]
      cases hv with
      | fund _ _ hf' _ => exact (hf hf').elim
      | typedef _ pt2 b2 _ _ hd2 hp2 hm2 =>
        rw [hd] at hd2; cases hd2
        cases hp2 with
        | fund _ _ hf3 h3 => exact .fund _ _ hf3 (meansMods_append h3 (.inl hj2) hm2)
        | typedef _ pt3 b3 _ hf3 hd3 hp3 h3 => exact .typedef _ pt3 b3 _ hf3 hd3 hp3 (meansMods_append h3 (.inl hj2) hm2)

end

end Pyclib
