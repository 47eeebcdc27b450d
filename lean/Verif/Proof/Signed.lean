import Verif.Proof.Text
/-
Lemmas on `re.sub(r"\bsigned\b", "", s).strip()`: text is cut into maximal runs of word characters.
-/
set_option linter.unusedSimpArgs false
namespace Pyclib
open Spec

/-- `w₀ c₁ w₁ c₂ w₂ …` -/
def unchunk (w : Str) : List (Char × Str) → Str
  | [] => w
  | (c, w') :: l => w ++ c :: unchunk w' l

/-- `w₀, w₁, …` are runs of word characters, `c₁, c₂, …` are not word characters. -/
def GoodChunks (w : Str) (l : List (Char × Str)) : Prop :=
  (∀ x ∈ w, isWordC x = true) ∧ ∀ p ∈ l, isWordC p.1 = false ∧ ∀ x ∈ p.2, isWordC x = true

theorem exists_chunks (s : Str) : ∃ w l, GoodChunks w l ∧ s = unchunk w l := by
  induction s with
  | nil => exact ⟨[], [], by simp [GoodChunks], rfl⟩
  | cons c s ih =>
    obtain ⟨w, l, ⟨hw, hl⟩, rfl⟩ := ih
    by_cases hc : isWordC c = true
    · refine ⟨c :: w, l, ⟨?_, hl⟩, ?_⟩
      · simpa [hc] using hw
      · cases l <;> simp [unchunk]
    · have hc' : isWordC c = false := by simpa using hc
      exact ⟨[], (c, w) :: l, ⟨by simp, by simpa [hc'] using ⟨hw, by simpa using hl⟩⟩, by simp [unchunk]⟩

/-- The word `signed` disappears, every other word stays. -/
def rs (w : Str) : Str := if w = c%"signed" then [] else w

theorem removeSigned_skip (p : Bool) (w s : Str) (hne : w ≠ []) (hw : ∀ x ∈ w, isWordC x = true) :
    removeSigned p w.length (w ++ s) = removeSigned true 0 s := by
  induction w generalizing p with
  | nil => exact absurd rfl hne
  | cons c w ih =>
    have h1 := hw c (by simp)
    cases w with
    | nil => simp only [List.length_cons, List.length_nil, List.cons_append, List.nil_append, removeSigned, h1]
    | cons d w =>
      rw [List.length_cons, List.cons_append, removeSigned]
      exact ih _ (by simp) (fun x hx => hw x (by simp [hx]))

theorem removeSigned_inword (w s : Str) (hw : ∀ x ∈ w, isWordC x = true) :
    removeSigned true 0 (w ++ s) = w ++ removeSigned true 0 s := by
  induction w with
  | nil => rfl
  | cons c w ih =>
    have h1 := hw c (by simp)
    rw [List.cons_append, removeSigned]
    simp only [Bool.not_true, Bool.false_and, Bool.false_eq_true, if_false, h1]
    rw [ih (fun x hx => hw x (by simp [hx]))]
    rfl

theorem removeSigned_nonword (p : Bool) (c : Char) (s : Str) (hc : isWordC c = false) :
    removeSigned p 0 (c :: s) = c :: removeSigned false 0 s := by
  rw [removeSigned]
  have : startsWith (c :: s) c%"signed" = false := by
    have hs : c ≠ 's' := by rintro rfl; revert hc; decide
    simp [startsWith, hs]
  simp [this, hc]

/-- `rest` is empty or starts with a non-word character. -/
def EndsWord (rest : Str) : Prop := ∀ c ∈ rest.head?, isWordC c = false

theorem removeSigned_word (w rest : Str) (hw : ∀ x ∈ w, isWordC x = true) (hr : EndsWord rest) :
    removeSigned false 0 (w ++ rest) = rs w ++ removeSigned true 0 rest := by
  by_cases h : w = c%"signed"
  · subst h
    simp only [rs, if_true, List.nil_append]
    have h6 : (rest.head?.any isWordC) = false := by
      cases rest with
      | nil => rfl
      | cons c r => simpa [EndsWord] using hr
    rw [List.cons_append, removeSigned]
    rw [if_pos]
    · have := removeSigned_skip (isWordC 's') c%"igned" rest (by simp) (by decide)
      exact this
    · simp [startsWith, h6]
  · simp only [rs, h, if_false]
    cases w with
    | nil =>
      cases rest with
      | nil => rfl
      | cons c r =>
        have hc : isWordC c = false := hr c (by simp)
        rw [List.nil_append, removeSigned_nonword _ _ _ hc, removeSigned_nonword _ _ _ hc]; rfl
    | cons c w =>
      have h1 := hw c (by simp)
      rw [List.cons_append, removeSigned, if_neg]
      · rw [h1, removeSigned_inword _ _ (fun x hx => hw x (by simp [hx]))]; rfl
      · intro hh
        simp only [Bool.not_false, Bool.true_and, Bool.and_eq_true, Bool.not_eq_true'] at hh
        obtain ⟨hs, hn⟩ := hh
        obtain ⟨r, hr'⟩ := (startsWith_iff _ _).1 hs
        apply h
        -- compare the two decompositions
        have hlen : (c :: w) ++ rest = c%"signed" ++ r := by simpa using hr'
        have hn' : (((c :: w) ++ rest).drop 6).head?.any isWordC = false := by simpa using hn
        rw [hlen] at hn'
        have hn2 : r.head?.any isWordC = false := by simpa using hn'
        rcases List.append_eq_append_iff.1 hlen with ⟨a, ha, hb⟩ | ⟨a, ha, hb⟩
        · -- "signed" = (c::w) ++ a, rest = a ++ r
          cases a with
          | nil => simpa using ha.symm
          | cons x a =>
            exfalso
            have hx : isWordC x = false := hr x (by simp [hb])
            have hm : x ∈ c%"signed" := by rw [ha]; simp
            have : ∀ y ∈ c%"signed", isWordC y = true := by decide
            rw [this x hm] at hx; cases hx
        · -- c::w = "signed" ++ a, r = a ++ rest
          cases a with
          | nil => simpa using ha
          | cons x a =>
            exfalso
            have hx : isWordC x = true := hw x (by rw [ha]; simp)
            simp [hb, hx] at hn2

theorem endsWord_unchunk {w : Str} {l : List (Char × Str)} (h : GoodChunks w l) :
    ∃ rest, unchunk w l = w ++ rest ∧ EndsWord rest ∧
      (∀ p, removeSigned p 0 rest =
        match l with
        | [] => []
        | (c, w') :: l' => c :: removeSigned false 0 (unchunk w' l')) := by
  cases l with
  | nil => exact ⟨[], by simp [unchunk], by simp [EndsWord], by simp [removeSigned]⟩
  | cons p l =>
    obtain ⟨c, w'⟩ := p
    have hc := (h.2 (c, w') (by simp)).1
    refine ⟨c :: unchunk w' l, rfl, by simpa [EndsWord] using hc, ?_⟩
    intro p
    rw [removeSigned_nonword _ _ _ hc]

theorem removeSigned_unchunk (w : Str) (l : List (Char × Str)) (h : GoodChunks w l) :
    removeSigned false 0 (unchunk w l) = unchunk (rs w) (l.map fun p => (p.1, rs p.2)) := by
  induction l generalizing w with
  | nil =>
    have := removeSigned_word w [] h.1 (by simp [EndsWord])
    simpa [unchunk, removeSigned] using this
  | cons p l ih =>
    obtain ⟨c, w'⟩ := p
    have hp := h.2 (c, w') (by simp)
    have h' : GoodChunks w' l := ⟨hp.2, fun q hq => h.2 q (by simp [hq])⟩
    simp only [unchunk, List.map_cons]
    rw [removeSigned_word w _ h.1 (by simpa [EndsWord] using hp.1),
      removeSigned_nonword _ _ _ hp.1, ih _ h']

theorem rs_rs (w : Str) : rs (rs w) = rs w := by
  unfold rs; by_cases h : w = c%"signed" <;> simp [h]

theorem rs_word {w : Str} (h : ∀ x ∈ w, isWordC x = true) : ∀ x ∈ rs w, isWordC x = true := by
  unfold rs; split
  · simp
  · exact h

/-- No word of the text is `signed`. -/
def NoSigned (s : Str) : Prop :=
  ∃ w l, GoodChunks w l ∧ s = unchunk w l ∧ rs w = w ∧ ∀ p ∈ l, rs p.2 = p.2

theorem noSigned_removeSigned (s : Str) : NoSigned (removeSigned false 0 s) := by
  obtain ⟨w, l, h, rfl⟩ := exists_chunks s
  refine ⟨rs w, l.map fun p => (p.1, rs p.2), ⟨rs_word h.1, ?_⟩, removeSigned_unchunk w l h, rs_rs w, ?_⟩
  · intro p hp
    obtain ⟨q, hq, rfl⟩ := List.mem_map.1 hp
    exact ⟨(h.2 q hq).1, rs_word (h.2 q hq).2⟩
  · intro p hp
    obtain ⟨q, hq, rfl⟩ := List.mem_map.1 hp
    exact rs_rs _

theorem removeSigned_of_noSigned {s : Str} (h : NoSigned s) : removeSigned false 0 s = s := by
  obtain ⟨w, l, hg, rfl, hw, hl⟩ := h
  rw [removeSigned_unchunk w l hg, hw]
  congr 1
  conv => rhs; rw [← List.map_id l]
  apply List.map_congr_left
  intro p hp
  rw [hl p hp]; rfl

theorem isSpaceC_not_word {c : Char} (h : isSpaceC c = true) : isWordC c = false := by
  simp only [isSpaceC, Bool.or_eq_true, decide_eq_true_eq] at h
  have key : ∀ n : Nat, n ≤ 32 → c.toNat = n → isWordC c = false := by
    intro n hn hc
    have h0 : c.val.toNat ≤ 32 := by show c.toNat ≤ 32; omega
    have e1 : 'A'.val.toNat = 65 := rfl
    have e2 : 'a'.val.toNat = 97 := rfl
    have e3 : '0'.val.toNat = 48 := rfl
    have h4 : c ≠ '_' := by rintro rfl; revert h0; decide
    simp only [isWordC, Char.isAlphanum, Char.isAlpha, Char.isUpper, Char.isLower, Char.isDigit,
      Bool.or_eq_false_iff, Bool.and_eq_false_iff, decide_eq_false_iff_not, UInt32.le_iff_toNat_le,
      ge_iff_le]
    exact ⟨⟨⟨by omega, by omega⟩, by omega⟩, h4⟩
  rcases h with ((((((((h | h) | h) | h) | h) | h) | h) | h) | h) | h
  · subst h; decide
  · subst h; decide
  · subst h; decide
  · subst h; decide
  all_goals exact key _ (by omega) h

theorem noSigned_cons_space {c : Char} {s : Str} (hc : isWordC c = false) (h : NoSigned (c :: s)) :
    NoSigned s := by
  obtain ⟨w, l, hg, he, hw, hl⟩ := h
  cases w with
  | cons d w =>
    exfalso
    have : c = d := by cases l <;> (simp [unchunk] at he; exact he.1)
    subst this
    have := hg.1 c (by simp); rw [hc] at this; cases this
  | nil =>
    cases l with
    | nil => simp [unchunk] at he
    | cons p l =>
      obtain ⟨d, w'⟩ := p
      simp [unchunk] at he
      obtain ⟨rfl, rfl⟩ := he
      exact ⟨w', l, ⟨(hg.2 (c, w') (by simp)).2, fun q hq => hg.2 q (by simp [hq])⟩, rfl,
        hl (c, w') (by simp), fun q hq => hl q (by simp [hq])⟩

theorem noSigned_lstrip {s : Str} (h : NoSigned s) : NoSigned (lstrip s) := by
  unfold lstrip
  induction s with
  | nil => exact h
  | cons c s ih =>
    by_cases hc : isSpaceC c = true
    · simp only [List.dropWhile_cons, hc, if_true]
      exact ih (noSigned_cons_space (isSpaceC_not_word hc) h)
    · simp only [List.dropWhile_cons, hc]; exact h

theorem unchunk_snoc (w : Str) (l : List (Char × Str)) (c : Char) (w' : Str) :
    unchunk w (l ++ [(c, w')]) = unchunk w l ++ c :: w' := by
  induction l generalizing w with
  | nil => simp [unchunk]
  | cons p l ih => obtain ⟨d, v⟩ := p; simp [unchunk, ih]

theorem noSigned_snoc_space {c : Char} {s : Str} (hc : isWordC c = false) (h : NoSigned (s ++ [c])) :
    NoSigned s := by
  obtain ⟨w, l, hg, he, hw, hl⟩ := h
  rcases List.eq_nil_or_concat l with rfl | ⟨l, p, rfl⟩
  · exfalso
    have : c ∈ w := by
      have : c ∈ s ++ [c] := by simp
      rw [he] at this; exact this
    have := hg.1 c this; rw [hc] at this; cases this
  · obtain ⟨d, w'⟩ := p
    rw [List.concat_eq_append] at he hg hl
    rw [unchunk_snoc] at he
    rcases List.eq_nil_or_concat w' with rfl | ⟨v, x, rfl⟩
    · have := List.append_inj_left' he (by simp)
      exact ⟨w, l, ⟨hg.1, fun q hq => hg.2 q (by simp [hq])⟩, this, hw, fun q hq => hl q (by simp [hq])⟩
    · exfalso
      rw [List.concat_eq_append] at he hg hl
      have h1 : s ++ [c] = (unchunk w l ++ d :: v) ++ [x] := by rw [he]; simp
      have : c = x := by
        have := List.append_inj_right' h1 (by simp)
        simpa using this
      subst this
      have := (hg.2 (d, v ++ [c]) (by simp)).2 c (by simp)
      rw [hc] at this; cases this

theorem noSigned_rstrip {s : Str} (h : NoSigned s) : NoSigned (rstrip s) := by
  unfold rstrip
  generalize hr : s.reverse = r
  induction r generalizing s with
  | nil => simpa [List.reverse_eq_nil_iff.1 hr] using h
  | cons c r ih =>
    have hs : s = r.reverse ++ [c] := by
      have := congrArg List.reverse hr; simpa using this
    by_cases hc : isSpaceC c = true
    · simp only [List.dropWhile_cons, hc, if_true]
      subst hs
      exact ih (noSigned_snoc_space (isSpaceC_not_word hc) h) (by simp)
    · simp only [List.dropWhile_cons, hc]
      have : (c :: r).reverse = s := by rw [hs]; simp
      simpa [this] using h

theorem lstrip_lstrip (s : Str) : lstrip (lstrip s) = lstrip s := by
  unfold lstrip
  induction s with
  | nil => rfl
  | cons c s ih =>
    by_cases hc : isSpaceC c = true
    · simpa [List.dropWhile_cons, hc] using ih
    · simp [List.dropWhile_cons, hc]

theorem rstrip_rstrip (s : Str) : rstrip (rstrip s) = rstrip s := by
  have := lstrip_lstrip s.reverse
  unfold lstrip at this
  simp [rstrip, this]

/-- a stripped text begins with a non-space character -/
theorem lstrip_rstrip_of_lstrip (s : Str) : lstrip (rstrip (lstrip s)) = rstrip (lstrip s) := by
  generalize ht : lstrip s = t
  have hhead : ∀ c ∈ t.head?, isSpaceC c = false := by
    rw [← ht]; unfold lstrip
    intro c hc
    induction s generalizing t with
    | nil => simp at hc
    | cons d s ih =>
      by_cases hd : isSpaceC d = true
      · simp [List.dropWhile_cons, hd] at hc
        exact ih _ rfl hc
      · simp [List.dropWhile_cons, hd] at hc; subst hc; simpa using hd
  cases t with
  | nil => rfl
  | cons c t =>
    have hc := hhead c (by simp)
    have : ∃ u, rstrip (c :: t) = c :: u := by
      unfold rstrip
      rw [List.reverse_cons, List.dropWhile_append]
      split
      · simp [List.dropWhile_cons, hc]
      · exact ⟨(List.dropWhile isSpaceC t.reverse).reverse, by simp⟩
    obtain ⟨u, hu⟩ := this
    rw [hu, lstrip]; simp [List.dropWhile_cons, hc]

theorem strip_strip (s : Str) : strip (strip s) = strip s := by
  unfold strip
  rw [lstrip_rstrip_of_lstrip, rstrip_rstrip]

theorem dropSigned_noSigned (s : Str) : NoSigned (dropSigned s) :=
  noSigned_rstrip (noSigned_lstrip (noSigned_removeSigned s))

theorem dropSigned_idem (s : Str) : dropSigned (dropSigned s) = dropSigned s := by
  show strip (removeSigned false 0 (dropSigned s)) = _
  rw [removeSigned_of_noSigned (dropSigned_noSigned s)]
  exact strip_strip _

/-! ### Words -/

theorem WordsOf_space {c : Char} {s : Str} {ws : List Str} (hc : isSpaceC c = true) :
    WordsOf (c :: s) ws ↔ WordsOf s ws := by
  rw [← splitWs_iff, ← splitWs_iff]
  simp [splitWs, splitWsAux, hc]

theorem splitWs_word (w s : Str) (hne : w ≠ []) (hw : ∀ c ∈ w, isSpaceC c = false)
    (hs : ∀ c ∈ s.head?, isSpaceC c = true) : splitWs (w ++ s) = w :: splitWs s := by
  rw [splitWs_iff]
  have := (splitWs_iff s _).1 rfl
  exact WordsOf.cons [] w s _ (by simp) hne hw hs this

theorem isWordC_not_space {c : Char} (h : isWordC c = true) : isSpaceC c = false := by
  cases h' : isSpaceC c with
  | false => rfl
  | true => rw [isSpaceC_not_word h'] at h; cases h

theorem splitWs_unchunk (w : Str) (l : List (Char × Str)) (h : GoodChunks w l)
    (hsp : ∀ p ∈ l, isSpaceC p.1 = true) :
    splitWs (unchunk w l) = (w :: l.map (·.2)).filter (· ≠ []) := by
  induction l generalizing w with
  | nil =>
    cases w with
    | nil => rfl
    | cons c w =>
      have := splitWs_word (c :: w) [] (by simp) (fun d hd => isWordC_not_space (h.1 d hd)) (by simp)
      simpa [unchunk, splitWs, splitWsAux] using this
  | cons p l ih =>
    obtain ⟨c, w'⟩ := p
    have hc : isSpaceC c = true := hsp (c, w') (by simp)
    have h' : GoodChunks w' l := ⟨(h.2 (c, w') (by simp)).2, fun q hq => h.2 q (by simp [hq])⟩
    have ih' := ih w' h' (fun q hq => hsp q (by simp [hq]))
    have hcons : splitWs (c :: unchunk w' l) = splitWs (unchunk w' l) := by
      simp [splitWs, splitWsAux, hc]
    cases w with
    | nil => simp only [unchunk, List.nil_append]; rw [hcons, ih']; simp
    | cons d w =>
      simp only [unchunk]
      rw [splitWs_word (d :: w) _ (by simp) (fun d hd => isWordC_not_space (h.1 d hd)) (by simpa using hc),
        hcons, ih']; simp

theorem splitWs_lstrip (s : Str) : splitWs (lstrip s) = splitWs s := by
  unfold lstrip
  induction s with
  | nil => rfl
  | cons c s ih =>
    by_cases hc : isSpaceC c = true
    · simp only [List.dropWhile_cons, hc, if_true]; rw [ih]; simp [splitWs, splitWsAux, hc]
    · simp [List.dropWhile_cons, hc]

theorem splitWsAux_snoc_space (s : Str) (c : Char) (hc : isSpaceC c = true) (cur : Str) :
    splitWsAux (s ++ [c]) cur = splitWsAux s cur := by
  induction s generalizing cur with
  | nil => by_cases h : cur = [] <;> simp [splitWsAux, hc, h]
  | cons d s ih => simp only [List.cons_append, splitWsAux, ih]

theorem splitWs_rstrip (s : Str) : splitWs (rstrip s) = splitWs s := by
  unfold rstrip
  generalize hr : s.reverse = r
  induction r generalizing s with
  | nil => simp [List.reverse_eq_nil_iff.1 hr]
  | cons c r ih =>
    have hs : s = r.reverse ++ [c] := by
      have := congrArg List.reverse hr; simpa using this
    by_cases hc : isSpaceC c = true
    · simp only [List.dropWhile_cons, hc, if_true]
      rw [ih r.reverse (by simp), hs, splitWs, splitWs, splitWsAux_snoc_space _ _ hc]
    · simp only [List.dropWhile_cons, hc]
      rw [hs]; simp

theorem splitWs_strip (s : Str) : splitWs (strip s) = splitWs s := by
  rw [strip, splitWs_rstrip, splitWs_lstrip]

/-- In text made of word characters and white space, `dropSigned` deletes exactly the words `signed`. -/
theorem splitWs_dropSigned (s : Str) (h : ∀ c ∈ s, isWordC c = true ∨ isSpaceC c = true) :
    splitWs (dropSigned s) = (splitWs s).filter (· ≠ c%"signed") := by
  obtain ⟨w, l, hg, rfl⟩ := exists_chunks s
  have hmem : ∀ (w : Str) (l : List (Char × Str)), ∀ p ∈ l, p.1 ∈ unchunk w l := by
    intro w l
    induction l generalizing w with
    | nil => simp
    | cons q l ih =>
      obtain ⟨d, v⟩ := q
      intro p hp
      rcases List.mem_cons.1 hp with rfl | hp
      · simp [unchunk]
      · simp only [unchunk, List.mem_append, List.mem_cons]
        exact Or.inr (Or.inr (ih v p hp))
  have hsp : ∀ p ∈ l, isSpaceC p.1 = true := by
    intro p hp
    rcases h p.1 (hmem w l p hp) with h1 | h1
    · rw [(hg.2 p hp).1] at h1; cases h1
    · exact h1
  rw [dropSigned, splitWs_strip, removeSigned_unchunk _ _ hg, splitWs_unchunk _ _ hg hsp,
    splitWs_unchunk]
  · have key : ∀ ws : List Str, (ws.map rs).filter (· ≠ []) =
        (ws.filter (· ≠ [])).filter (· ≠ c%"signed") := by
      intro ws
      induction ws with
      | nil => rfl
      | cons v ws ih =>
        by_cases h1 : v = c%"signed"
        · subst h1; simp [rs] at ih ⊢; exact ih
        · by_cases h2 : v = []
          · subst h2; simp [rs] at ih ⊢; exact ih
          · simp [rs, h1, h2] at ih ⊢; exact ih
    have := key (w :: l.map (·.2))
    simpa [List.map_map, Function.comp_def] using this
  · refine ⟨rs_word hg.1, ?_⟩
    intro p hp
    obtain ⟨q, hq, rfl⟩ := List.mem_map.1 hp
    exact ⟨(hg.2 q hq).1, rs_word (hg.2 q hq).2⟩
  · intro p hp
    obtain ⟨q, hq, rfl⟩ := List.mem_map.1 hp
    exact hsp q hq

end Pyclib
