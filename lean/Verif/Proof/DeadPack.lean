import Verif.Proof.SplitPack
import Verif.Props.Dead
/-! Proofs about skipped text in files with pragmas. -/
namespace Pyclib
open Spec

section
variable {f f' : Nat → Option Nat}

/-- The same text in front of two texts that may be moved. -/
theorem same_append {u u' : Str} (hu : FollowsP f f' u u') : ∀ (n : Nat) (k : Ctx) (p : Char) (t : Str), t.length < n → t.getLast? ≠ some '\\' →
    (∀ a x b, t = a ++ x :: b → isWhite x = false → f (x :: (b ++ u)).length = f' (x :: (b ++ u')).length) → Respaced f f' k p (t ++ u) (t ++ u')
  | 0, _, _, t, h, _, _ => by omega
  | n + 1, k, p, t, h, hl, hf => by
    have e := (List.takeWhile_append_dropWhile (p := isWhite) (l := t)).symm
    have w1 := takeWhile_white t
    cases hd : t.dropWhile isWhite with
    | nil =>
      rw [hd, List.append_nil] at e
      exact hu.2.2 k p t t (by rw [e]; exact w1) (by rw [e]; exact w1)
    | cons c v =>
      rw [hd] at e
      generalize t.takeWhile isWhite = w at e w1
      have hc : isWhite c = false := by
        have := List.head?_dropWhile_not isWhite t
        rw [hd] at this
        simpa using this
      subst e
      have hlen : v.length < n := by simp at h; omega
      have hk := hf w c v rfl hc
      have hv : ∀ a x b, v = a ++ x :: b → isWhite x = false → f (x :: (b ++ u)).length = f' (x :: (b ++ u')).length :=
        fun a x b ev hx => hf (w ++ c :: a) x b (by simp [ev]) hx
      have hl' := last_tail (last_suffix hl)
      rw [List.append_assoc, List.append_assoc]
      by_cases hq : isQuoteC c = true
      · cases hm : matchQuoted c v with
        | none =>
          exact .char _ _ w w c (v ++ u) (v ++ u') w1 w1 hc (.inl rfl) hk
            (fun e => by simp [matchQuoted_eol e hu.1 hl', matchQuoted_eol e hu.2.1 hl', hm]) (same_append hu n _ _ v hlen hl' hv)
        | some x =>
          obtain ⟨a, r⟩ := x
          have ev := matchQuoted_eq hm
          subst ev
          have hr : r.length < n := by simp at hlen; omega
          exact .literal _ _ w w c (a ++ r ++ u) (a ++ r ++ u') a (r ++ u) (r ++ u') w1 w1 hq (.inl rfl) hk
            (by rw [matchQuoted_eol hq hu.1 hl', hm]; rfl) (by rw [matchQuoted_eol hq hu.2.1 hl', hm]; rfl)
            (same_append hu n _ _ _ hlen hl' hv)
            (same_append hu n _ _ r hr (last_suffix hl') (fun b x y e hx => hv (a ++ b) x y (by simp [e]) hx))
      · exact .char _ _ w w c (v ++ u) (v ++ u') w1 w1 hc (.inl rfl) hk (fun h => absurd h hq) (same_append hu n _ _ v hlen hl' hv)

/-- The same text at the end, where the packings are the same. -/
theorem followsP_same {t : Str} (hs : Starts t) (hf : ∀ m, m ≤ t.length → f m = f' m) : FollowsP f f' ('\n' :: t) ('\n' :: t) := by
  refine ⟨.inr ⟨_, rfl⟩, .inr ⟨_, rfl⟩, fun k p w w' hw hw' => ?_⟩
  have hn : isWhite '\n' = true := rfl
  have h := respaced_same (f := f) (f' := f') _ .free ' ' t (Nat.lt_succ_self _) hf
  have e := (List.takeWhile_append_dropWhile (p := isWhite) (l := t)).symm
  have w1 := takeWhile_white t
  cases hd : t.dropWhile isWhite with
  | nil =>
    rw [hd, List.append_nil] at e
    exact .tail _ _ _ _ (by rw [e]; simp [hw, w1, hn]) (by rw [e]; simp [hw', w1, hn])
  | cons c v =>
    rw [hd] at e
    generalize t.takeWhile isWhite = a at e w1
    have hc : isWhite c = false := by
      have := List.head?_dropWhile_not isWhite t
      rw [hd] at this
      simpa using this
    subst e
    have hst := hs a c v rfl w1 hc
    have hk : f (c :: v).length = f' (c :: v).length := hf _ (by simp)
    have hv : ∀ m, m ≤ v.length → f m = f' m := fun m hm => hf m (by simp; omega)
    rw [show w ++ '\n' :: (a ++ c :: v) = (w ++ '\n' :: a) ++ c :: v by simp, show w' ++ '\n' :: (a ++ c :: v) = (w' ++ '\n' :: a) ++ c :: v by simp]
    have g : Gap k p (w ++ '\n' :: a) (w' ++ '\n' :: a) c := .inr ⟨kept_start hst, .inl ⟨by simp, by simp⟩⟩
    by_cases hq : isQuoteC c = true
    · cases hm : matchQuoted c v with
      | none =>
        exact .char _ _ _ _ c v v (by simp [hw, w1, hn]) (by simp [hw', w1, hn]) hc g hk (fun _ => ⟨hm, hm⟩)
          (respaced_same _ _ _ v (Nat.lt_succ_self _) hv)
      | some x =>
        obtain ⟨b, r⟩ := x
        have hl := congrArg List.length (matchQuoted_eq hm)
        simp at hl
        exact .literal _ _ _ _ c v v b r r (by simp [hw, w1, hn]) (by simp [hw', w1, hn]) hq g hk hm hm
          (respaced_same _ _ _ v (Nat.lt_succ_self _) hv) (respaced_same _ _ _ r (Nat.lt_succ_self _) (fun m hm => hv m (by omega)))
    · exact .char _ _ _ _ c v v (by simp [hw, w1, hn]) (by simp [hw', w1, hn]) hc g hk (fun h => absurd h hq)
        (respaced_same _ _ _ v (Nat.lt_succ_self _) hv)
end

/-- Packings that begin later. -/
theorem packingAt_later {line : Nat} {b : List (Nat × Option Nat)} (hb : ∀ q ∈ b, line < q.1) : ∀ (a : List (Nat × Option Nat)) (acc : Option Nat),
    packingAtFrom acc line (a ++ b) = packingAtFrom acc line a
  | [], acc => by
    cases b with
    | nil => rfl
    | cons q b =>
      obtain ⟨i, p⟩ := q
      have : line < i := hb (i, p) (by simp)
      simp only [List.nil_append, packingAtFrom]
      rw [if_neg (by omega)]
  | (i, p) :: a, acc => by
    simp only [List.cons_append, packingAtFrom, packingAt_later hb a p]

/-- Packings that began earlier. -/
theorem packingAt_earlier {line : Nat} {b : List (Nat × Option Nat)} : ∀ (a : List (Nat × Option Nat)) (acc : Option Nat), (∀ q ∈ a, q.1 ≤ line) →
    packingAtFrom acc line (a ++ b) = packingAtFrom ((a.getLast?.map (·.2)).getD acc) line b
  | [], acc, _ => rfl
  | (i, p) :: a, acc, ha => by
    have h1 : i ≤ line := ha (i, p) (by simp)
    simp only [List.cons_append, packingAtFrom, if_pos h1]
    rw [packingAt_earlier a p (fun q hq => ha q (by simp [hq]))]
    congr 1
    cases a with
    | nil => rfl
    | cons q a => rw [List.getLast?_cons_cons]; cases h : (q :: a).getLast? <;> simp_all

theorem count_nl {os : List Out} (h : ∀ o ∈ os, '\n' ∉ o.text) : (nlText os).count '\n' = os.length := by
  induction os with
  | nil => rfl
  | cons o os ih =>
    have h1 : '\n' ∉ o.text := h o (by simp)
    simp only [nlText, List.flatMap_cons, List.length_cons] at ih ⊢
    rw [List.count_append, ih (fun o ho => h o (by simp [ho])), List.count_cons_self, List.count_eq_zero.2 h1]
    omega

/-- The text around a region, with packings. -/
theorem respP_around {o1 b b' o2 : List Out} {P m : List (Nat × Option Nat)} (hb : codes b = []) (hb' : codes b' = [])
    (h1 : (joinC '\n' (o1.map Out.text)).getLast? ≠ some '\\') (h2 : Starts (joinC '\n' (o2.map Out.text)))
    (hn : ∀ o ∈ o1, '\n' ∉ o.text) (hP : ∀ q ∈ P, q.1 ≤ o1.length) (hm : ∀ q ∈ m, o1.length < q.1) {f f' : Nat → Option Nat}
    (hf : PkFun (nlText (o1 ++ (b ++ o2))) (P ++ shiftPacks b.length m) f) (hf' : PkFun (nlText (o1 ++ (b' ++ o2))) (P ++ shiftPacks b'.length m) f') :
    Respaced f f' .free ' ' (joinC '\n' ((o1 ++ (b ++ o2)).map Out.text)) (joinC '\n' ((o1 ++ (b' ++ o2)).map Out.text)) := by
  have blank : ∀ {b : List Out}, codes b = [] → ∀ o ∈ b, '\n' ∉ o.text := by
    intro b hb o ho
    rw [blank_of_codes hb] at ho
    rw [List.eq_of_mem_replicate ho]
    simp [Out.text]
  have hfu : ∀ n, n ≤ (joinC '\n' (o2.map Out.text)).length → o2 ≠ [] → f n = f' n := by
    intro n hn' ho
    have key : ∀ (b : List Out) (f : Nat → Option Nat), codes b = [] → PkFun (nlText (o1 ++ (b ++ o2))) (P ++ shiftPacks b.length m) f →
        f n = packingAtFrom ((P.getLast?.map (·.2)).getD none)
          (o1.length + ('\n' :: (joinC '\n' (o2.map Out.text)).take ((joinC '\n' (o2.map Out.text)).length - n)).count '\n') m := by
      intro b f hb hf
      have e : nlText (o1 ++ (b ++ o2)) = (nlText o1 ++ (nlText b ++ '\n' :: (joinC '\n' (o2.map Out.text)).take ((joinC '\n' (o2.map Out.text)).length - n))) ++
          (joinC '\n' (o2.map Out.text)).drop ((joinC '\n' (o2.map Out.text)).length - n) := by
        rw [nlText_append, nlText_append, nlText_join ho]
        simp
      have := hf _ _ e (by simp)
      rw [List.length_drop, show (joinC '\n' (o2.map Out.text)).length - ((joinC '\n' (o2.map Out.text)).length - n) = n by omega] at this
      rw [this, List.count_append, List.count_append, count_nl hn, count_nl (blank hb), packingAt,
        packingAt_earlier P none (fun q hq => by have := hP q hq; omega)]
      refine Eq.trans ?_ (packingAt_shift b.length _ m _)
      congr 1
      omega
    rw [key b f hb hf, key b' f' hb' hf']
  have hfo : FollowsP f f' (nlText (b ++ o2)) (nlText (b' ++ o2)) := by
    have e1 := nlText_eol (b ++ o2)
    have e2 := nlText_eol (b' ++ o2)
    rw [nlText_append] at e1 e2
    rw [nlText_append, nlText_append]
    refine followsP_blank ?_ (codes_white hb) (codes_white hb') e1 e2
    by_cases ho : o2 = []
    · subst ho; exact followsP_nil
    · rw [nlText_join ho]
      exact followsP_same h2 (fun n hn => hfu n hn ho)
  by_cases ho : o1 = []
  · subst ho
    exact respP_out hfo
  · rw [join_nl ho, join_nl ho]
    refine same_append hfo _ _ _ _ (Nat.lt_succ_self _) h1 (fun a x c e hx => ?_)
    have key : ∀ (b : List Out) (f : Nat → Option Nat), PkFun (nlText (o1 ++ (b ++ o2))) (P ++ shiftPacks b.length m) f →
        f (x :: (c ++ nlText (b ++ o2))).length = packingAt (('\n' :: a).count '\n') P := by
      intro b f hf
      have e' : nlText (o1 ++ (b ++ o2)) = ('\n' :: a) ++ (x :: (c ++ nlText (b ++ o2))) := by
        rw [nlText_append, nlText_join ho, e]
        simp
      rw [hf _ _ e' (by simp), packingAt]
      refine packingAt_later (fun q hq => ?_) P none
      have hle : ('\n' :: a).count '\n' ≤ o1.length := by
        rw [← count_nl hn, nlText_join ho, e]
        simp only [List.count_cons_self, List.count_append]
        omega
      obtain ⟨q', hq', rfl⟩ := List.mem_map.1 hq
      have := hm q' hq'
      simp only
      omega
    rw [key b f hf, key b' f' hf']

end Pyclib
