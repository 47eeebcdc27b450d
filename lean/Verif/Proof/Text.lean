import Verif.Spec.Types
namespace Pyclib
open Spec

theorem startsWith_iff (s p : Str) : startsWith s p = true ↔ ∃ r, s = p ++ r := by
  induction p generalizing s with
  | nil => simp [startsWith]
  | cons d p ih =>
    cases s with
    | nil => simp [startsWith]
    | cons c s =>
      simp only [startsWith, Bool.and_eq_true, decide_eq_true_eq, ih, List.cons_append, List.cons.injEq]
      constructor
      · rintro ⟨h, r, hr⟩; exact ⟨r, h, hr⟩
      · rintro ⟨r, h, hr⟩; exact ⟨h, r, hr⟩

theorem splitWsAux_spaces (pre s : Str) (h : ∀ c ∈ pre, isSpaceC c = true) :
    splitWsAux (pre ++ s) [] = splitWsAux s [] := by
  induction pre with
  | nil => rfl
  | cons c pre ih =>
    have h1 := h c (by simp)
    simp only [List.cons_append, splitWsAux, h1, if_true]
    exact ih (fun c hc => h c (by simp [hc]))

theorem splitWsAux_word (w s cur : Str) (h : ∀ c ∈ w, isSpaceC c = false) :
    splitWsAux (w ++ s) cur = splitWsAux s (w.reverse ++ cur) := by
  induction w generalizing cur with
  | nil => rfl
  | cons c w ih =>
    have h1 := h c (by simp)
    simp only [List.cons_append, splitWsAux, h1]
    rw [if_neg (by simp), ih _ (fun c hc => h c (by simp [hc]))]
    simp

theorem wordsOf_splitWs {s : Str} {ws : List Str} (h : WordsOf s ws) : splitWs s = ws := by
  unfold splitWs
  induction h with
  | nil s h =>
    have := splitWsAux_spaces s [] h
    simpa [splitWsAux] using this
  | cons pre w rest ws hpre hne hw hrest _ ih =>
    rw [List.append_assoc, splitWsAux_spaces _ _ hpre, splitWsAux_word _ _ _ hw]
    have hr : w.reverse ++ [] ≠ [] := by simpa using hne
    cases rest with
    | nil =>
      simp [splitWsAux] at ih ⊢
      simp [hne, ← ih]
    | cons c rest =>
      have h1 : isSpaceC c = true := hrest c (by simp)
      simp only [splitWsAux, h1, if_true] at ih ⊢
      rw [if_neg hr, ih]; simp

theorem exists_wordsOf (s : Str) : ∃ ws, WordsOf s ws := by
  induction s with
  | nil => exact ⟨[], .nil [] (by simp)⟩
  | cons c s ih =>
    obtain ⟨ws, h⟩ := ih
    by_cases hc : isSpaceC c = true
    · cases h with
      | nil _ h => exact ⟨[], .nil _ (by simpa [hc] using h)⟩
      | cons pre w rest ws hpre hne hw hrest h =>
        exact ⟨w :: ws, .cons (c :: pre) w rest ws (by simpa [hc] using hpre) hne hw hrest h⟩
    · have hc' : isSpaceC c = false := by simpa using hc
      by_cases hs : ∀ d ∈ s.head?, isSpaceC d = true
      · exact ⟨[c] :: ws, .cons [] [c] s ws (by simp) (by simp) (by simpa using hc') hs h⟩
      · cases h with
        | nil _ h =>
          exfalso; apply hs
          intro d hd; exact h d (List.mem_of_mem_head? hd)
        | cons pre w rest ws hpre hne hw hrest h =>
          cases pre with
          | nil =>
            refine ⟨(c :: w) :: ws, .cons [] (c :: w) rest ws (by simp) (by simp) ?_ hrest h⟩
            intro d hd
            rcases List.mem_cons.1 hd with rfl | hd
            · exact hc'
            · exact hw d hd
          | cons d pre =>
            exfalso; apply hs
            intro e he
            simp at he; subst he; exact hpre _ (by simp)

theorem splitWs_iff (s : Str) (ws : List Str) : splitWs s = ws ↔ WordsOf s ws := by
  constructor
  · rintro rfl
    obtain ⟨ws, h⟩ := exists_wordsOf s
    rw [wordsOf_splitWs h]; exact h
  · exact wordsOf_splitWs

end Pyclib
