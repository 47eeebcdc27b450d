import Verif.Spec.Tabs
import Verif.Proof.RespaceDecl
/-! Proofs about the expansion of tabs. -/
namespace Pyclib
open Spec

/-- The column after a text. -/
def colAfter (k : Nat) (s : Str) : Nat := s.foldl colAfter1 k

theorem colAfter_cons (k : Nat) (c : Char) (s : Str) : colAfter k (c :: s) = colAfter (colAfter1 k c) s := rfl

theorem exp_app (a b : Str) : ∀ k, expandTabs k (a ++ b) = expandTabs k a ++ expandTabs (colAfter k a) b := by
  induction a with
  | nil => intro k; rfl
  | cons c a ih => intro k; simp [expandTabs, ih, colAfter_cons]

theorem exp_free {s : Str} : ∀ {k}, '\t' ∉ s → expandTabs k s = s := by
  induction s with
  | nil => intros; rfl
  | cons c s ih =>
    intro k h
    simp only [List.mem_cons, not_or] at h
    simp [expandTabs, Ne.symm h.1, ih h.2]

theorem exp_other {c : Char} (h : c ≠ '\t') (k : Nat) (s : Str) : expandTabs k (c :: s) = c :: expandTabs (colAfter1 k c) s := by
  simp [expandTabs, h]

theorem rep_pos (k : Nat) : ∃ n, 8 - k % 8 = n + 1 := ⟨7 - k % 8, by omega⟩

theorem exp_tab (k : Nat) (s : Str) : ∃ n, expandTabs k ('\t' :: s) = ' ' :: (List.replicate n ' ' ++ expandTabs (colAfter1 k '\t') s) := by
  obtain ⟨n, hn⟩ := rep_pos k
  exact ⟨n, by simp [expandTabs, hn, List.replicate_succ]⟩

theorem exp_white {w : Str} : ∀ {k}, w.all isWhite = true → (expandTabs k w).all isWhite = true := by
  induction w with
  | nil => intros; rfl
  | cons c w ih =>
    intro k h
    simp only [List.all_cons, Bool.and_eq_true] at h
    by_cases hc : c = '\t'
    · subst hc
      simp only [expandTabs, if_true, List.all_append, ih h.2, Bool.and_true, List.all_replicate]
      simp [isWhite]
    · rw [exp_other hc]; simp [h.1, ih h.2]

theorem exp_ne {w : Str} {k : Nat} (h : w ≠ []) : expandTabs k w ≠ [] := by
  cases w with
  | nil => exact (h rfl).elim
  | cons c w =>
    by_cases hc : c = '\t'
    · subst hc; obtain ⟨n, e⟩ := exp_tab k w; rw [e]; simp
    · rw [exp_other hc]; simp

theorem exp_lines {s : Str} : ∀ {k}, ((expandTabs k s).filter (· = '\n')).length = (s.filter (· = '\n')).length := by
  induction s with
  | nil => intros; rfl
  | cons c s ih =>
    intro k
    by_cases hc : c = '\t'
    · subst hc; simp [expandTabs, List.filter_append, ih, List.filter_replicate]
    · rw [exp_other hc, List.filter_cons, List.filter_cons]
      split <;> simp [ih]

theorem qBody_blanks {q : Char} (hq : isQuoteC q = true) (s : Str) : ∀ n, qBody q (List.replicate n ' ' ++ s) =
    (List.replicate n ' ' ++ (qBody q s).1, (qBody q s).2) := by
  have h1 : ' ' ≠ q := by rintro rfl; exact absurd hq (by decide)
  intro n
  induction n with
  | zero => simp
  | succ n ih =>
    rw [List.replicate_succ, List.cons_append]
    cases hs : List.replicate n ' ' ++ s with
    | nil =>
      rw [hs] at ih
      simp only [List.append_eq_nil_iff] at hs
      simp [hs.1, hs.2, qBody, h1]
    | cons d r =>
      rw [qBody_cons2, ← hs, ih]
      simp [h1]

theorem qBody_exp {q : Char} (hq : isQuoteC q = true) (t : Str) : ∀ k, qBody q (expandTabs k t) =
    (expandTabs k (qBody q t).1, expandTabs (colAfter k (qBody q t).1) (qBody q t).2) := by
  have hqt : q ≠ '\t' := by rintro rfl; exact absurd hq (by decide)
  have hqs : q ≠ ' ' := by rintro rfl; exact absurd hq (by decide)
  have hqb : q ≠ '\\' := by rintro rfl; exact absurd hq (by decide)
  obtain ⟨n, hn⟩ : ∃ n, t.length ≤ n := ⟨_, Nat.le_refl _⟩
  induction n using Nat.strongRecOn generalizing t with
  | ind n ih =>
  intro k
  -- an ordinary character
  have ord : ∀ c s, t = c :: s → c ≠ '\\' → c ≠ q → c ≠ '\n' → c ≠ '\r' → qBody q (expandTabs k t) =
      (expandTabs k (qBody q t).1, expandTabs (colAfter k (qBody q t).1) (qBody q t).2) := by
    rintro c s rfl h1 h2 h3 h4
    have key : ∀ u, qBody q (c :: u) = (c :: (qBody q u).1, (qBody q u).2) := by
      intro u
      cases u with
      | nil => simp [qBody, h1, h2, h3, h4]
      | cons d u => rw [qBody_cons2]; simp [h1, h2, h3, h4]
    have hs := ih s.length (by simp at hn; omega) s (Nat.le_refl _)
    rw [key s]
    by_cases hc : c = '\t'
    · subst hc
      simp only [expandTabs, if_true, qBody_blanks hq, hs, colAfter_cons]
    · rw [exp_other hc, key, hs, exp_other hc, colAfter_cons]
  match t with
  | [] => rfl
  | [c] =>
    by_cases h : c = '\\' ∨ c = q ∨ c = '\n' ∨ c = '\r'
    · have hc : c ≠ '\t' := by rintro rfl; rcases h with h | h | h | h <;> first | exact hqt h.symm | exact absurd h (by decide)
      have e : qBody q [c] = ([], [c]) := by
        have : (decide (c = q) || decide (c = '\n') || decide (c = '\r') || decide (c = '\\')) = true := by
          simp only [Bool.or_eq_true, decide_eq_true_eq]; grind
        simp only [qBody, this, if_true]
      rw [exp_other hc, expandTabs, e]
      simp [expandTabs, colAfter, hc]
    · exact ord c [] rfl (fun e => h (.inl e)) (fun e => h (.inr (.inl e))) (fun e => h (.inr (.inr (.inl e)))) (fun e => h (.inr (.inr (.inr e))))
  | c :: d :: s =>
    by_cases h1 : c = '\\'
    · subst h1
      rw [exp_other (by decide)]
      by_cases hx : d = 'x'
      · subst hx
        rw [exp_other (by decide), qBody_cons2, qBody_cons2]
        simp only [if_true]
        cases s with
        | nil => simp [expandTabs, colAfter]
        | cons h s' =>
          by_cases hh : h = '\t'
          · subst hh
            obtain ⟨m, e⟩ := exp_tab (colAfter1 (colAfter1 k '\\') 'x') s'
            rw [e]
            have a1 : isHexC ' ' = false := by decide
            have a2 : isHexC '\t' = false := by decide
            simp only [a1, a2, Bool.false_eq_true, if_false]
            simp only [expandTabs, colAfter, List.foldl_nil]
            simp [expandTabs] at e
            simp [e]
          · rw [exp_other hh]
            have hs := ih s'.length (by simp at hn; omega) s' (Nat.le_refl _)
            by_cases hx : isHexC h = true
            · simp only [hx, if_true, hs]
              rw [exp_other (by decide), exp_other (by decide), exp_other hh]
              rfl
            · simp only [hx, Bool.false_eq_true, if_false]
              simp [expandTabs, colAfter, hh]
      · have hs := ih s.length (by simp at hn; omega) s (Nat.le_refl _)
        have e2 : qBody q ('\\' :: d :: s) = ('\\' :: d :: (qBody q s).1, (qBody q s).2) := by
          rw [qBody_cons2]; simp [hx]
        rw [e2]
        by_cases hd : d = '\t'
        · subst hd
          obtain ⟨m, e⟩ := rep_pos (colAfter1 k '\\')
          simp only [expandTabs, if_true, e, List.replicate_succ, List.cons_append]
          rw [qBody_cons2]
          simp only [if_true, if_neg (by decide : ¬ (' ' = 'x')), qBody_blanks hq, hs]
          simp [expandTabs, colAfter_cons, e, List.replicate_succ]
        · rw [exp_other hd, qBody_cons2]
          simp only [if_true, if_neg hx, hs]
          rw [exp_other (by decide), exp_other hd]
          rfl
    · by_cases h2 : c = q
      · subst h2
        rw [exp_other hqt]
        by_cases hd : d = c
        · subst hd
          have hs := ih s.length (by simp at hn; omega) s (Nat.le_refl _)
          rw [exp_other hqt, qBody_cons2, qBody_cons2]
          simp only [if_neg h1, if_true, hs]
          rw [exp_other hqt, exp_other hqt]
          rfl
        · have e1 : ∀ d s, d ≠ c → qBody c (c :: d :: s) = ([], c :: d :: s) := by
            intro d s hd; rw [qBody_cons2]; simp [h1, hd]
          rw [e1 d s hd]
          by_cases ht : d = '\t'
          · subst ht
            obtain ⟨m, e⟩ := exp_tab (colAfter1 k c) s
            rw [e, e1 _ _ (fun h => hqs h.symm)]
            simp only [colAfter, List.foldl_nil]
            rw [exp_other hqt, e]
            rfl
          · rw [exp_other ht, e1 _ _ hd]
            simp only [colAfter, List.foldl_nil]
            rw [exp_other hqt, exp_other ht]
            rfl
      · by_cases h3 : c = '\n' ∨ c = '\r'
        · have e1 : ∀ u, qBody q (c :: u) = ([], c :: u) := by
            intro u
            cases u with
            | nil => simp only [qBody]; rcases h3 with rfl | rfl <;> simp
            | cons d u => rw [qBody_cons2]; simp only [if_neg h1, if_neg h2]; rcases h3 with rfl | rfl <;> simp
          have hc : c ≠ '\t' := by rintro rfl; rcases h3 with h | h <;> exact absurd h (by decide)
          rw [exp_other hc, e1, e1]
          simp only [colAfter, List.foldl_nil]
          rw [exp_other hc]
          rfl
        · exact ord c (d :: s) rfl h1 h2 (fun e => h3 (.inl e)) (fun e => h3 (.inr e))

theorem matchQuoted_exp {q : Char} (hq : isQuoteC q = true) (t : Str) (k : Nat) : matchQuoted q (expandTabs k t) =
    (matchQuoted q t).map fun p => (expandTabs k p.1, expandTabs (colAfter k p.1) p.2) := by
  have hqt : q ≠ '\t' := by rintro rfl; exact absurd hq (by decide)
  have hqn : q ≠ '\n' := by rintro rfl; exact absurd hq (by decide)
  unfold matchQuoted
  rw [qBody_exp hq]
  rcases qBody q t with ⟨b, _ | ⟨c, r⟩⟩
  · rfl
  · by_cases hc : c = '\t'
    · subst hc
      obtain ⟨n, e⟩ := exp_tab (colAfter k b) r
      have : ' ' ≠ q := by rintro rfl; exact absurd hq (by decide)
      simp [e, this, hqt.symm]
    · simp only [exp_other hc]
      by_cases h : c = q
      · subst h
        simp [exp_app, expandTabs, colAfter, hqt]
      · simp [h]

theorem linenoAt_exp (pre t : Str) : linenoAt (expandTabs 0 (pre ++ t)) ((expandTabs 0 (pre ++ t)).length - (expandTabs (colAfter 0 pre) t).length) =
    linenoAt (pre ++ t) ((pre ++ t).length - t.length) := by
  unfold linenoAt
  rw [exp_app]
  simp [exp_lines]

/-- A text with safe tabs differs from the expanded one in white space only. -/
theorem tab_respaced (packs : List (Nat × Option Nat)) {out : Str} {k : Ctx} {p : Char} {t : Str} (h : TabSafe k p t) : ∀ pre, out = pre ++ t →
    Respaced (fun n => structPacking packs out (out.length - n))
      (fun n => structPacking packs (expandTabs 0 out) ((expandTabs 0 out).length - n)) k p t (expandTabs (colAfter 0 pre) t) := by
  have gap : ∀ (k : Ctx) (p : Char) (w : Str) (c : Char) (j : Nat), ('\t' ∈ w → kept k c = false) → Gap k p w (expandTabs j w) c := by
    intro k p w c j hk
    by_cases ht : '\t' ∈ w
    · have : w ≠ [] := by rintro rfl; cases ht
      exact .inr ⟨hk ht, .inl ⟨this, exp_ne this⟩⟩
    · exact .inl (exp_free ht).symm
  have pk : ∀ pre c t, c ≠ '\t' → out = pre ++ c :: t → structPacking packs out (out.length - (c :: t).length) =
      structPacking packs (expandTabs 0 out) ((expandTabs 0 out).length - (c :: expandTabs (colAfter1 (colAfter 0 pre) c) t).length) := by
    intro pre c t hc e
    have := linenoAt_exp pre (c :: t)
    rw [exp_other hc, ← e] at this
    unfold structPacking
    rw [this]
  induction h with
  | tail k p w hw => exact fun pre _ => .tail _ _ _ _ hw (exp_white hw)
  | char k p w c t hw hc hk hq h ih =>
    intro pre e
    have ht : c ≠ '\t' := by rintro rfl; exact absurd hc (by decide)
    have e2 : out = (pre ++ w) ++ c :: t := by rw [e, List.append_assoc]
    have col : colAfter (colAfter 0 pre) w = colAfter 0 (pre ++ w) := by simp [colAfter]
    rw [exp_app, exp_other ht, col]
    refine .char k p w _ c t _ hw (exp_white hw) hc (gap _ _ _ _ _ hk) (pk _ _ _ ht e2) ?_ ?_
    · intro hcq
      exact ⟨hq hcq, by rw [matchQuoted_exp hcq, hq hcq]; rfl⟩
    · have := ih (pre ++ w ++ [c]) (by rw [e2]; simp)
      simpa [colAfter] using this
  | literal k p w c t a r hw hc hk hq ha h hr ih ihr =>
    intro pre e
    have ht : c ≠ '\t' := by rintro rfl; exact absurd hc (by decide)
    have e2 : out = (pre ++ w) ++ c :: t := by rw [e, List.append_assoc]
    have e3 : out = (pre ++ w ++ c :: a) ++ r := by rw [e2, ← matchQuoted_eq hq]; simp
    have col : colAfter (colAfter 0 pre) w = colAfter 0 (pre ++ w) := by simp [colAfter]
    rw [exp_app, exp_other ht, col]
    have col2 : colAfter1 (colAfter 0 (pre ++ w)) c = colAfter 0 (pre ++ w ++ [c]) := by simp [colAfter]
    refine .literal k p w _ c t _ a r (expandTabs (colAfter (colAfter1 (colAfter 0 (pre ++ w)) c) a) r) hw (exp_white hw) hc (gap _ _ _ _ _ hk) (pk _ _ _ ht e2) hq
      (by rw [matchQuoted_exp hc, hq, Option.map_some, exp_free ha]) ?_ ?_
    · rw [col2]; exact ih (pre ++ w ++ [c]) (by rw [e2]; simp)
    · have := ihr (pre ++ w ++ c :: a) e3
      rw [show colAfter (colAfter1 (colAfter 0 (pre ++ w)) c) a = colAfter 0 (pre ++ w ++ c :: a) by simp [colAfter]]
      exact this

end Pyclib
