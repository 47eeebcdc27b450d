import Verif.Props.Split
import Verif.Props.RelaidPack
/-! Proofs about files that are split into two where the second part has pragmas. -/
namespace Pyclib
open Spec

theorem respaced_same {f f' : Nat → Option Nat} : ∀ (n : Nat) (k : Ctx) (p : Char) (t : Str), t.length < n → (∀ m, m ≤ t.length → f m = f' m) →
    Respaced f f' k p t t
  | 0, _, _, t, h, _ => by omega
  | n + 1, k, p, t, h, hf => by
    have e := (List.takeWhile_append_dropWhile (p := isWhite) (l := t)).symm
    have w1 := takeWhile_white t
    cases hd : t.dropWhile isWhite with
    | nil =>
      rw [hd, List.append_nil] at e
      rw [e]
      exact .tail _ _ _ _ w1 w1
    | cons c u =>
      rw [hd] at e
      have hc : isWhite c = false := by
        have := List.head?_dropWhile_not isWhite t
        rw [hd] at this
        simpa using this
      have hl : u.length + 1 ≤ t.length := by
        have := congrArg List.length e
        simp at this
        omega
      have hk : f (c :: u).length = f' (c :: u).length := hf _ (by simpa using hl)
      have hu : ∀ m, m ≤ u.length → f m = f' m := fun m hm => hf m (by omega)
      rw [e]
      by_cases hq : isQuoteC c = true
      · cases hm : matchQuoted c u with
        | none => exact .char _ _ _ _ c u u w1 w1 hc (.inl rfl) hk (fun _ => ⟨hm, hm⟩) (respaced_same n _ _ u (by omega) hu)
        | some x =>
          obtain ⟨a, r⟩ := x
          have := congrArg List.length (matchQuoted_eq hm)
          simp at this
          exact .literal _ _ _ _ c u u a r r w1 w1 hq (.inl rfl) hk hm hm (respaced_same n _ _ u (by omega) hu)
            (respaced_same n _ _ r (by omega) (fun m hm => hf m (by omega)))
      · exact .char _ _ _ _ c u u w1 w1 hc (.inl rfl) hk (fun h => absurd h hq) (respaced_same n _ _ u (by omega) hu)

theorem lay_extend_pk {tail x : Str} {f : Nat → Option Nat} (hf : ∀ n, x.length < n → f n = none) {p : Char} {text : Str} {ts : List Tk}
    (h : Lay ⟨tail, fun _ => none⟩ p text ts) : Lay ⟨tail ++ x, f⟩ p (text ++ x) ts := by
  induction h with
  | nil p => exact Lay.nil (doc := ⟨tail ++ x, f⟩) p
  | cons p ws c w text ts pk h1 h2 h3 h4 _ ih =>
    rw [List.append_assoc]
    refine Lay.cons (doc := ⟨tail ++ x, f⟩) p ws c w (text ++ x) ts pk h1 h2 h3 (fun u hu => ?_) ih
    rw [h4 u hu]
    exact (hf _ (by simp; omega)).symm

/-- A header in front of another text, with pragmas. -/
theorem parseDefs_split_pk {g : Gram} (hg : gramOk g = true) {f' : Nat → Option Nat} {tail a t : Str} {s s' : St} {ts : List Tk}
    (h1 : ∀ n, t.length < n → g.pack n = none) (h2 : ∀ n, n ≤ t.length → g.pack n = f' n)
    (hj : ∀ f f' t t', Respaced f f' .free ';' t t' → g.junk t = g.junk t')
    (hh : CHeader g s ts s') (hl : Lay ⟨tail, fun _ => none⟩ ' ' a ts) (ht : tail.all isWhite = true) (hC : ∀ u ∈ ts, u.w ≠ c%"\"C\"") :
    parseDefs g s (a ++ '\n' :: t) = parseDefs (g.withPack f') s' t := by
  have hl2 : Lay ⟨tail ++ '\n' :: t, g.pack⟩ ' ' (a ++ '\n' :: t) ts := lay_extend_pk (fun n hn => h1 n (by simp at hn; omega)) hl
  have h : At ⟨tail ++ '\n' :: t, g.pack⟩ ⟨' ', a ++ '\n' :: t⟩ (ts ++ []) := by simpa [At] using hl2
  have hlen := At.length h
  simp only [List.append_nil] at hlen
  obtain ⟨j', hj', e⟩ := scan_read hg rfl ((a ++ '\n' :: t).length + 1) hh ⟨' ', a ++ '\n' :: t⟩ [] ((a ++ '\n' :: t).length + 1) h (by
    omega) (by simp) (.inl hC)
  have hr := lay_rest (At.drop ts h)
  unfold parseDefs
  rw [e]
  have hla : ('\n' :: t).length ≤ (a ++ '\n' :: t).length := by simp
  have hlt := lay_length hl2
  rw [scan_skip (y := ⟨' ', '\n' :: t⟩)]
  · rw [scan_fuel (noEmpty_of_ok hg) _ (('\n' :: t).length + 1) _ (('\n' :: t).length + 1) _ _ (by simp only; omega) (by simp) (by
      rw [hr] at hj'
      simp at hj' ⊢
      omega) (by simp)]
    refine (C59_texts_partial (g := g) (pack := g.pack) (pack' := g.pack) (text := '\n' :: t) (text' := t) hg s' (hj _ _)
      (respP_strip' (respaced_refl _ _ _ _ (Nat.lt_succ_self _)))).trans ?_
    exact C59_texts_partial (g := g) (pack := g.pack) (pack' := f') (text := t) (text' := t) hg s' (hj _ _)
      (respaced_same _ _ _ _ (Nat.lt_succ_self _) h2)
  · unfold Pos.skip
    rw [hr]
    exact skipWs_front t tail _ ht

/-! ### Lines and packings -/

/-- The packings of a text that follows `k` lines. -/
def shiftPacks (k : Nat) (m : List (Nat × Option Nat)) : List (Nat × Option Nat) := m.map fun q => (k + q.1, q.2)

theorem packingAt_shift (k line : Nat) : ∀ (m : List (Nat × Option Nat)) (acc : Option Nat),
    packingAtFrom acc (k + line) (shiftPacks k m) = packingAtFrom acc line m
  | [], _ => rfl
  | (i, p) :: m, acc => by
    have := packingAt_shift k line m p
    unfold shiftPacks at this
    simp only [shiftPacks, List.map_cons, packingAtFrom, Nat.add_le_add_iff_left, this]

theorem packingAt_before (k line : Nat) (h : line ≤ k) {m : List (Nat × Option Nat)} (hm : ∀ q ∈ m, 1 ≤ q.1) (acc : Option Nat) :
    packingAtFrom acc line (shiftPacks k m) = acc := by
  cases m with
  | nil => rfl
  | cons q m =>
    have := hm q (by simp)
    simp only [shiftPacks, List.map_cons, packingAtFrom]
    rw [if_neg (by omega)]

theorem join_count : ∀ (ls : List Str), ls ≠ [] → (∀ l ∈ ls, '\n' ∉ l) → ((joinC '\n' ls).filter (· = '\n')).length + 1 = ls.length
  | [], h, _ => absurd rfl h
  | [l], _, h => by
    have : l.filter (· = '\n') = [] := by
      rw [List.filter_eq_nil_iff]
      intro c hc
      have := h l (by simp)
      simp only [decide_eq_true_eq]
      rintro rfl
      exact this hc
    simp [joinC, this]
  | l :: l2 :: ls, _, h => by
    have e : l.filter (· = '\n') = [] := by
      rw [List.filter_eq_nil_iff]
      intro c hc
      have := h l (by simp)
      simp only [decide_eq_true_eq]
      rintro rfl
      exact this hc
    have := join_count (l2 :: ls) (by simp) (fun l hl => h l (by simp [hl]))
    simp only [joinC, List.filter_append, e, List.nil_append, List.filter_cons, decide_true, if_true, List.length_cons] at this ⊢
    omega

theorem pack_second {k : Nat} {a t : Str} (ha : (a.filter (· = '\n')).length + 1 = k) (m : List (Nat × Option Nat)) {n : Nat} (hn : n ≤ t.length) :
    structPacking ((0, none) :: shiftPacks k m) (a ++ '\n' :: t) ((a ++ '\n' :: t).length - n) =
      structPacking ((0, none) :: m) t (t.length - n) := by
  have e : (a ++ '\n' :: t).length - n = (a ++ ['\n']).length + (t.length - n) := by simp; omega
  have e2 : a ++ '\n' :: t = (a ++ ['\n']) ++ t := by simp
  have e3 : linenoAt (a ++ '\n' :: t) ((a ++ '\n' :: t).length - n) = k + linenoAt t (t.length - n) := by
    unfold linenoAt
    rw [e, e2, List.take_length_add_append]
    simp only [List.filter_append, List.length_append, List.filter_cons, decide_true, if_true, List.filter_nil, List.length_cons, List.length_nil]
    omega
  unfold structPacking packingAt
  rw [e3]
  simp only [packingAtFrom, Nat.zero_le, if_true, packingAt_shift]

theorem pack_first {k : Nat} {a x : Str} (ha : (a.filter (· = '\n')).length + 1 = k) {m : List (Nat × Option Nat)} (hm : ∀ q ∈ m, 1 ≤ q.1) {n : Nat}
    (hn : x.length ≤ n) : structPacking ((0, none) :: shiftPacks k m) (a ++ x) ((a ++ x).length - n) = none := by
  have e : linenoAt (a ++ x) ((a ++ x).length - n) ≤ k := by
    unfold linenoAt
    have h1 : (a ++ x).length - n ≤ a.length := by simp; omega
    rw [List.take_append_of_le_length h1, ← ha]
    have := ((List.take_sublist ((a ++ x).length - n) a).filter (fun c => decide (c = '\n'))).length_le
    omega
  unfold structPacking packingAt
  simp only [packingAtFrom, Nat.zero_le, if_true]
  exact packingAt_before k _ e hm _

/-! ### The preprocessor -/

section
variable {E : Type} {sem : PPSem E}

theorem ppStep_shift (k i : Nat) (S : PPState E) (l' : List (Nat × Option Nat)) (l : Line) :
    (∃ e, ppStep sem i S l = .error e ∧ ppStep sem (k + i) (S.withPacks l') l = .error e) ∨
    ∃ S1 o m, ppStep sem i S l = .ok (S1, o) ∧ ppStep sem (k + i) (S.withPacks l') l = .ok (S1.withPacks (l' ++ shiftPacks k m), o) ∧
      S1.packList = S.packList ++ m ∧ (∀ q ∈ m, i ≤ q.1) ∧ ((∀ r, l ≠ .pragma r) → m = []) := by
  by_cases hl : ∀ r, l ≠ .pragma r
  · rw [ppStep_with i (k + i) S l' l hl]
    have hp : ∀ S1 o, ppStep sem i S l = .ok (S1, o) → S1.packList = S.packList := by
      intro S1 o e
      have := ppStep_with (sem := sem) i i S S.packList l hl
      rw [show S.withPacks S.packList = S from rfl, e] at this
      simp only [Except.map, Except.ok.injEq, Prod.mk.injEq, and_true] at this
      rw [this]
      rfl
    cases h : ppStep sem i S l with
    | error e => exact .inl ⟨e, rfl, rfl⟩
    | ok q => exact .inr ⟨q.1, q.2, [], rfl, by simp [Except.map, shiftPacks], by simp [hp q.1 q.2 h], by simp, fun _ => rfl⟩
  · obtain ⟨r, rfl⟩ : ∃ r, l = .pragma r := by
      cases l with
      | pragma r => exact ⟨r, rfl⟩
      | _ => exact absurd (fun r h => by cases h) hl
    have same : ∃ S1 m, S1 = S ∧ m = ([] : List (Nat × Option Nat)) ∧ S1.packList = S.packList ++ m := ⟨S, [], rfl, rfl, by simp⟩
    simp only [ppStep]
    rw [show (S.withPacks l').ifTrue = S.ifTrue from rfl, show (S.withPacks l').env = S.env from rfl]
    cases hi : S.ifTrue with
    | nil => exact .inl ⟨_, rfl, rfl⟩
    | cons b ts =>
      cases b with
      | false => exact .inr ⟨S, none, [], rfl, by simp [shiftPacks], by simp, by simp, fun _ => rfl⟩
      | true =>
        simp only
        cases packMatch (if ts.all id = true then sem.expand S.env r else r) with
        | none => exact .inr ⟨S, none, [], rfl, by simp [shiftPacks], by simp, by simp, fun _ => rfl⟩
        | some txt =>
          simp only [doPack]
          rcases packEffect_with i (k + i) S l' (decide (((splitOnC ',' txt).map strip).head? = some c%"pop"))
              (packOpts ((splitOnC ',' txt).map strip) (none, none, none)).1 (packOpts ((splitOnC ',' txt).map strip) (none, none, none)).2.1
              (packOpts ((splitOnC ',' txt).map strip) (none, none, none)).2.2 with ⟨e, h1, h2⟩ | ⟨S1, p, h1, h2, _, _, h5⟩
          · rw [h1, h2]
            exact .inl ⟨e, rfl, rfl⟩
          · rw [h1, h2]
            refine .inr ⟨S1, some .blank, [(i, p)], rfl, rfl, h5, by simp, fun h => absurd rfl (h r)⟩

theorem ppRun_shift (k : Nat) : ∀ (ls : List Line) (i : Nat) (S : PPState E) (l' : List (Nat × Option Nat)),
    (∃ e, ppRun sem i S ls = .error e ∧ ppRun sem (k + i) (S.withPacks l') ls = .error e) ∨
    ∃ S1 os m, ppRun sem i S ls = .ok (S1, os) ∧ ppRun sem (k + i) (S.withPacks l') ls = .ok (S1.withPacks (l' ++ shiftPacks k m), os) ∧
      S1.packList = S.packList ++ m ∧ (∀ q ∈ m, i ≤ q.1) ∧ ((∀ l r, ls.head? = some l → l ≠ .pragma r) → ∀ q ∈ m, i + 1 ≤ q.1)
  | [], i, S, l' => .inr ⟨S, [], [], rfl, by simp [ppRun, shiftPacks], by simp, by simp, by simp⟩
  | l :: ls, i, S, l' => by
    simp only [ppRun]
    rcases ppStep_shift (sem := sem) k i S l' l with ⟨e, h1, h2⟩ | ⟨S1, o, m, h1, h2, h3, h4, h5⟩
    · rw [h1, h2]
      exact .inl ⟨e, rfl, rfl⟩
    · rw [h1, h2]
      simp only
      rw [show k + i + 1 = k + (i + 1) from rfl]
      rcases ppRun_shift k ls (i + 1) S1 (l' ++ shiftPacks k m) with ⟨e, g1, g2⟩ | ⟨S2, os, m', g1, g2, g3, g4, _⟩
      · rw [g1, g2]
        exact .inl ⟨e, rfl, rfl⟩
      · rw [g1, g2]
        refine .inr ⟨S2, o.toList ++ os, m ++ m', rfl, ?_, ?_, ?_, ?_⟩
        · simp only [shiftPacks, List.map_append, List.append_assoc]
        · rw [g3, h3, List.append_assoc]
        · intro q hq
          rcases List.mem_append.1 hq with hq | hq
          · exact h4 q hq
          · have := g4 q hq; omega
        · intro hp q hq
          rw [h5 (fun r => hp l r rfl)] at hq
          exact g4 q (by simpa using hq)
end

end Pyclib
