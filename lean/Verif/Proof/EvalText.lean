import Verif.Proof.EvalScan
import Verif.Proof.Signed
/-
Proof that `CParser.eval` gives the text of an expression of the fragment to Python unchanged apart from
the suffixes of numbers, and that the value is the value in C.
-/
namespace Pyclib

open Spec

attribute [local irreducible] exprP exprN delim

/-! ### Numbers with a sign -/

theorem hexTok_sign {s sg s' : Str} (h1 : signTok s = (sg, s')) (h2 : signTok s' = ([], s')) :
    hexTok s = (hexTok s').map (fun p => (sg ++ p.1, p.2)) := by
  unfold hexTok
  rw [h1, h2]
  split
  · rename_i g x h r e
    cases e
    simp only
    split <;> simp
  · rename_i hne
    split
    · rename_i g x h r e
      cases e
      exact absurd rfl (hne sg x h r)
    · rfl

theorem decTok_sign {s sg s' : Str} (h1 : signTok s = (sg, s')) (h2 : signTok s' = ([], s')) :
    decTok s = (decTok s').map (fun p => (sg ++ p.1, p.2)) := by
  unfold decTok
  rw [h1, h2]
  cases s' with
  | nil => rfl
  | cons d r => simp only; split <;> simp

theorem floatTok_sign {s sg s' : Str} (h1 : signTok s = (sg, s')) (h2 : signTok s' = ([], s'))
    (h : floatTok s' = none) : floatTok s = none := by
  unfold floatTok at h ⊢
  rw [h1]
  rw [h2] at h
  simp only at h ⊢
  cases hm : mantTok s' with
  | none => rfl
  | some p =>
    obtain ⟨pt, m, r⟩ := p
    simp only [hm] at h ⊢
    cases he : expoTok r with
    | none =>
      simp only [he] at h ⊢
      cases pt with
      | false => rfl
      | true => simp at h
    | some q => simp [he] at h

theorem isSpaceC_white {c : Char} (h : isWhite c = true) : isSpaceC c = true := by
  rcases isWhite_cases h with h | h | h | h <;> subst h <;> decide

theorem signTok_read {sg : Char} (hsg : sg = '+' ∨ sg = '-') {ws s : Str} (hw : ws.all isWhite = true)
    (hs : ∀ c, s.head? = some c → isSpaceC c = false) : signTok (sg :: (ws ++ s)) = (sg :: ws, s) := by
  have hw' : ws.all isSpaceC = true := by
    rw [List.all_eq_true] at hw ⊢
    exact fun c hc => isSpaceC_white (hw c hc)
  obtain ⟨h1, h2⟩ := takeWhile_append_stop isSpaceC ws s hw' hs
  rcases hsg with rfl | rfl <;> simp [signTok, h1, h2]

/-- `number` without the skipping of white space. -/
def numberTok (s : Str) : Option (Str × Str × Str) := (floatTok s).or (integerTok s)

theorem intTok_start {w v : Str} (h : intTok w v) : ∃ c w', w = c :: w' ∧ c.isDigit = true := by
  have h1 := intTok_hd (t := ⟨w, none⟩) h
  have h2 := intTok_word h
  cases w with
  | nil => exact absurd h2 (by decide)
  | cons c w => exact ⟨c, w, rfl, h1⟩

theorem numberTok_int {w v : Str} (h : intTok w v) (r : Str)
    (hr : ∀ c, r.head? = some c → isIdC c = false ∧ c ≠ '.') :
    ∃ suf, w = v ++ suf ∧ numberTok (w ++ r) = some (v, suf, r) := by
  obtain ⟨suf, e, hv⟩ := integerTok_read h r (fun c hc => (hr c hc).1)
  exact ⟨suf, e, by simp [numberTok, floatTok_int h r hr, hv]⟩

theorem numberTok_signed {sg : Char} (hsg : sg = '+' ∨ sg = '-') {ws : Str} (hws : ws.all isWhite = true)
    {w v : Str} (h : intTok w v) (r : Str) (hr : ∀ c, r.head? = some c → isIdC c = false ∧ c ≠ '.') :
    ∃ suf, w = v ++ suf ∧ numberTok (sg :: (ws ++ (w ++ r))) = some (sg :: ws ++ v, suf, r) := by
  obtain ⟨c, w', e0, hc⟩ := intTok_start h
  have h2 : signTok (w ++ r) = ([], w ++ r) := by
    subst e0
    exact signTok_digit hc
  have h1 : signTok (sg :: (ws ++ (w ++ r))) = (sg :: ws, w ++ r) := by
    refine signTok_read hsg hws ?_
    intro d hd
    subst e0
    simp only [List.cons_append, List.head?_cons, Option.some.injEq] at hd
    subst hd
    exact (isDigit_facts hc).2.2.1
  obtain ⟨suf, e, hv⟩ := integerTok_read h r (fun c hc => (hr c hc).1)
  refine ⟨suf, e, ?_⟩
  unfold numberTok
  rw [floatTok_sign h1 h2 (floatTok_int h r hr), Option.none_or]
  unfold integerTok at hv ⊢
  rw [hexTok_sign h1 h2, decTok_sign h1 h2]
  cases hh : hexTok (w ++ r) with
  | none =>
    rw [hh, Option.none_or] at hv
    simp [hv]
  | some p =>
    rw [hh, Option.some_or] at hv
    cases hv
    simp

/-- A text that does not begin with a digit or a point, possibly after a sign, is not a number. -/
theorem numberTok_no {s sg s' : Str} (h1 : signTok s = (sg, s'))
    (h2 : ∀ c, s'.head? = some c → c.isDigit = false ∧ c ≠ '.') : numberTok s = none := by
  have hf : mantTok s' = none := by
    cases s' with
    | nil => rfl
    | cons c s' =>
      obtain ⟨h3, h4⟩ := h2 c rfl
      unfold mantTok
      split
      · rename_i e; cases e; exact absurd rfl h4
      · rename_i e; cases e; simp [h3]
      · rename_i e; cases e; simp [h3]
      · rfl
  have hh : hexTok s = none := by
    unfold hexTok
    rw [h1]
    split
    · rename_i e
      cases e
      exact absurd (h2 '0' rfl).1 (by decide)
    · rfl
  have hd : decTok s = none := by
    unfold decTok
    rw [h1]
    cases s' with
    | nil => rfl
    | cons c s' => simp [(h2 c rfl).1]
  simp [numberTok, floatTok, h1, hf, integerTok, hh, hd]

/-- Characters at which nothing is replaced. -/
def isPlainC (c : Char) : Bool :=
  !isWhite c && !c.isDigit && decide (c ∉ ['+', '-', '.', '"', '\'', '(']) && !isSpaceC c

theorem numberTok_plain {c : Char} (h : isPlainC c = true) (s : Str) : numberTok (c :: s) = none := by
  simp only [isPlainC, Bool.and_eq_true, Bool.not_eq_true', decide_eq_true_eq, List.mem_cons, not_or] at h
  obtain ⟨⟨⟨h1, h2⟩, h3, h4, h5, h6, h7, h8, _⟩, h9⟩ := h
  have hsign : signTok (c :: s) = ([], c :: s) := by
    unfold signTok
    split
    · rename_i e; cases e; exact absurd rfl h3
    · rename_i e; cases e; exact absurd rfl h4
    · simp [h9]
  refine numberTok_no hsign ?_
  intro d hd
  simp only [List.head?_cons, Option.some.injEq] at hd
  subst hd
  exact ⟨h2, h5⟩

/-! ### Steps of the scan -/

theorem skip_plain {p c : Char} {s : Str} (h : isWhite c = false) : Pos.skip ⟨p, c :: s⟩ = ⟨p, c :: s⟩ := by
  simp [Pos.skip, skipWs, h]

variable {g : Gram}

theorem evalScan_nil (n : Nat) (p : Char) : evalScan g n ⟨p, []⟩ = [] := by
  cases n <;> rfl

theorem evalScan_white {c : Char} (h : isWhite c = true) (n : Nat) (p : Char) (s : Str) :
    evalScan g (n + 1) ⟨p, c :: s⟩ = c :: evalScan g n ⟨c, s⟩ := by
  simp only [evalScan, h, if_true]

theorem quotedTok_char {p c : Char} {s : Str} (h : isWhite c = false) (hq : c ≠ '"' ∧ c ≠ '\'') :
    quotedTok ⟨p, c :: s⟩ = none := by
  simp [quotedTok, skip_plain h, hq]

theorem evalScan_num {c : Char} (h : isWhite c = false) (hq : c ≠ '"' ∧ c ≠ '\'') {s v suf r : Str}
    (hn : numberTok (c :: s) = some (v, suf, r)) (n : Nat) (p : Char) :
    evalScan g (n + 1) ⟨p, c :: s⟩ = v ++ evalScan g n (posAfter (v ++ suf) r) := by
  have hp : numberP ⟨p, c :: s⟩ = some (v, posAfter (v ++ suf) r) := by
    unfold numberTok at hn
    simp only [numberP, skip_plain h, hn, Option.map_some, numEnd]
  simp only [evalScan, h, Bool.false_eq_true, if_false, quotedTok_char h hq, hp]

theorem evalScan_step {c : Char} (h : isWhite c = false) (hq : c ≠ '"' ∧ c ≠ '\'') {s : Str}
    (hn : numberTok (c :: s) = none) {p : Char} (hc : evalCast g ⟨p, c :: s⟩ = none) (n : Nat) :
    evalScan g (n + 1) ⟨p, c :: s⟩ = c :: evalScan g n ⟨c, s⟩ := by
  have hp : numberP ⟨p, c :: s⟩ = none := by
    unfold numberTok at hn
    simp only [numberP, skip_plain h, hn, Option.map_none]
  simp only [evalScan, h, Bool.false_eq_true, if_false, quotedTok_char h hq, hp, hc]

theorem evalCast_char {c : Char} (h : isWhite c = false) (hc : c ≠ '(') (p : Char) (s : Str) :
    evalCast g ⟨p, c :: s⟩ = none := by
  have : lit '(' ⟨p, c :: s⟩ = none := by simp [lit, skip_plain h, hc]
  simp [evalCast, this]

theorem evalScan_plain {c : Char} (h : isPlainC c = true) (n : Nat) (p : Char) (s : Str) :
    evalScan g (n + 1) ⟨p, c :: s⟩ = c :: evalScan g n ⟨c, s⟩ := by
  have hn := numberTok_plain h s
  simp only [isPlainC, Bool.and_eq_true, Bool.not_eq_true', decide_eq_true_eq, List.mem_cons, not_or] at h
  obtain ⟨⟨⟨h1, h2⟩, h3, h4, h5, h6, h7, h8, _⟩, h9⟩ := h
  exact evalScan_step h1 ⟨h6, h7⟩ hn (evalCast_char h1 h8 p s) n

theorem evalScan_blanks : ∀ (ws : Str), ws.all isWhite = true → ∀ (s : Str) (n : Nat) (p : Char),
    evalScan g (n + ws.length) ⟨p, ws ++ s⟩ = ws ++ evalScan g n ⟨ws.getLastD p, s⟩
  | [], _, s, n, p => rfl
  | c :: ws, h, s, n, p => by
    simp only [List.all_cons, Bool.and_eq_true] at h
    simp only [List.length_cons, ← Nat.add_assoc, List.cons_append, evalScan_white h.1,
      evalScan_blanks ws h.2 s n c, List.getLastD_cons]

theorem evalScan_plains : ∀ (w : Str), w.all isPlainC = true → ∀ (s : Str) (n : Nat) (p : Char),
    evalScan g (n + w.length) ⟨p, w ++ s⟩ = w ++ evalScan g n ⟨w.getLastD p, s⟩
  | [], _, s, n, p => rfl
  | c :: w, h, s, n, p => by
    simp only [List.all_cons, Bool.and_eq_true] at h
    simp only [List.length_cons, ← Nat.add_assoc, List.cons_append, evalScan_plain h.1,
      evalScan_plains w h.2 s n c, List.getLastD_cons]

theorem getLastD_append_ne {α : Type} (a b : List α) (d e : α) (h : b ≠ []) :
    (a ++ b).getLastD d = b.getLastD e := by
  cases b with
  | nil => exact absurd rfl h
  | cons x b => simp [List.getLastD_eq_getLast?, List.getLast?_append, List.getLast?_cons]

/-- The rest of a name. -/
theorem evalScan_name (N : Nat) : ∀ (w : Str), w.length ≤ N → w.all isWordC = true → nameOk w = true →
    ∀ (s : Str), (∀ c, s.head? = some c → isIdC c = false ∧ c ≠ '.') → ∀ (n : Nat) (p : Char),
      (w ++ s).length + 1 ≤ n → ∃ m, s.length + 1 ≤ m ∧
        evalScan g n ⟨p, w ++ s⟩ = w ++ evalScan g m ⟨w.getLastD p, s⟩ := by
  induction N with
  | zero =>
    intro w hw _ _ s _ n p hn
    have : w = [] := List.length_eq_zero_iff.1 (by omega)
    subst this
    exact ⟨n, by simpa using hn, rfl⟩
  | succ N ih =>
    intro w hw hall hok s hs n p hn
    cases w with
    | nil => exact ⟨n, by simpa using hn, rfl⟩
    | cons c w =>
      simp only [List.all_cons, Bool.and_eq_true] at hall
      obtain ⟨n, rfl⟩ : ∃ k, n = k + 1 := ⟨n - 1, by omega⟩
      have hnw : isWhite c = false := by
        cases hc : isWhite c with
        | false => rfl
        | true => have := not_word_of_isIdC_false (isIdC_white hc); rw [hall.1] at this; cases this
      have hne : ∀ d : Char, isWordC d = false → c ≠ d := by
        rintro d hd rfl
        rw [hall.1] at hd
        cases hd
      by_cases hdig : c.isDigit = true
      · -- a run of digits
        have hrun : ∃ ds w', c :: w = ds ++ w' ∧ ds ≠ [] ∧ ds.all Char.isDigit = true ∧
            (∀ d, w'.head? = some d → d.isDigit = false) ∧ ds.length ≤ w.length + 1 ∧
            (∀ d, w'.head? = some d → d ∉ ['U', 'L', 'e', 'E', 'x', 'X']) ∧ nameOk w' = true := by
          have gen : ∀ (c : Char) (w : Str), c.isDigit = true → nameOk (c :: w) = true →
              ∃ ds w', c :: w = ds ++ w' ∧ ds ≠ [] ∧ ds.all Char.isDigit = true ∧
                (∀ d, w'.head? = some d → d.isDigit = false) ∧ ds.length ≤ w.length + 1 ∧
                (∀ d, w'.head? = some d → d ∉ ['U', 'L', 'e', 'E', 'x', 'X']) ∧ nameOk w' = true := by
            intro c w
            induction w generalizing c with
            | nil => intro hc _; exact ⟨[c], [], rfl, by simp, by simp [hc], by simp, by simp, by simp, rfl⟩
            | cons b w ih =>
              intro hc hok
              simp only [nameOk, hc, Bool.true_and, Bool.and_eq_true, Bool.not_eq_true', decide_eq_false_iff_not] at hok
              by_cases hb : b.isDigit = true
              · obtain ⟨ds, w', e, h1, h2, h3, h4, h5, h6⟩ := ih b hb hok.2
                exact ⟨c :: ds, w', by rw [e]; rfl, by simp, by simp [hc, h2], h3, by simp; omega, h5, h6⟩
              · refine ⟨[c], b :: w, rfl, by simp, by simp [hc], ?_, by simp, ?_, hok.2⟩
                · intro d hd
                  simp only [List.head?_cons, Option.some.injEq] at hd
                  subst hd
                  simpa using hb
                · intro d hd
                  simp only [List.head?_cons, Option.some.injEq] at hd
                  subst hd
                  exact hok.1
          exact gen c w hdig hok
        obtain ⟨ds, w', e, h1, h2, h3, h4, h5, h6⟩ := hrun
        have hall' : w'.all isWordC = true := by
          have : (c :: w).all isWordC = true := by simp [hall.1, hall.2]
          rw [e, List.all_append, Bool.and_eq_true] at this
          exact this.2
        have hr : ∀ d, (w' ++ s).head? = some d → d.isDigit = false ∧ isUL d = false ∧ d ≠ 'e' ∧ d ≠ 'E' ∧
            d ≠ 'x' ∧ d ≠ 'X' ∧ d ≠ '.' := by
          intro d hd
          cases w' with
          | nil =>
            obtain ⟨k1, k2⟩ := hs d hd
            have k3 := not_word_of_isIdC_false k1
            have kk : ∀ a : Char, isWordC a = true → d ≠ a := by
              rintro a ha rfl
              rw [k3] at ha
              cases ha
            refine ⟨?_, ?_, kk _ (by decide), kk _ (by decide), kk _ (by decide), kk _ (by decide), k2⟩
            · cases hx : d.isDigit with
              | false => rfl
              | true => rw [(isDigit_facts hx).2.2.2.2.2] at k3; cases k3
            · cases hx : isUL d with
              | false => rfl
              | true => rw [(isUL_digit hx).2.2.1] at k3; cases k3
          | cons b w' =>
            simp only [List.cons_append, List.head?_cons, Option.some.injEq] at hd
            subst hd
            have k1 := h5 b rfl
            simp only [List.mem_cons, List.not_mem_nil, not_or, or_false] at k1
            simp only [List.all_cons, Bool.and_eq_true] at hall'
            refine ⟨h3 b rfl, by simp [isUL, k1], k1.2.2.1, k1.2.2.2.1, k1.2.2.2.2.1, k1.2.2.2.2.2, ?_⟩
            rintro rfl
            exact absurd hall'.1 (by decide)
        have hnum : numberTok (ds ++ (w' ++ s)) = some (ds, [], w' ++ s) := by
          cases ds with
          | nil => exact absurd rfl h1
          | cons d ds =>
            simp only [List.all_cons, Bool.and_eq_true] at h2
            have hs1 : signTok (d :: (ds ++ (w' ++ s))) = ([], d :: (ds ++ (w' ++ s))) := signTok_digit h2.1
            have hx : ∀ b r, ds ++ (w' ++ s) = b :: r → b ≠ 'x' ∧ b ≠ 'X' ∧ b ≠ '.' ∧ b ≠ 'e' ∧ b ≠ 'E' := by
              intro b r e
              cases ds with
              | nil =>
                obtain ⟨k1, k2, k3, k4, k5, k6, k7⟩ := hr b (by rw [List.nil_append] at e; rw [e]; rfl)
                exact ⟨k5, k6, k7, k3, k4⟩
              | cons b' ds =>
                simp only [List.cons_append, List.cons.injEq] at e
                simp only [List.all_cons, Bool.and_eq_true] at h2
                rw [← e.1]
                have hb := h2.2.1
                refine ⟨?_, ?_, ?_, ?_, ?_⟩ <;> (rintro rfl; exact absurd hb (by decide))
            have hf : floatTok (d :: (ds ++ (w' ++ s))) = none := by
              unfold floatTok
              rw [hs1]
              simp only
              have hm : mantTok (d :: (ds ++ (w' ++ s))) = some (false, [d], ds ++ (w' ++ s)) := by
                unfold mantTok
                split
                · rename_i e; cases e; exact absurd h2.1 (by decide)
                · rename_i e
                  simp only [List.cons.injEq] at e
                  exact absurd rfl (hx _ _ e.2).2.2.1
                · rename_i e
                  simp only [List.cons.injEq] at e
                  obtain ⟨rfl, rfl⟩ := e
                  simp [h2.1]
                · rename_i e; cases e
              rw [hm]
              simp only
              have he : expoTok (ds ++ (w' ++ s)) = none := by
                cases hcs : ds ++ (w' ++ s) with
                | nil => rfl
                | cons b r => simp [expoTok, hx b r hcs]
              rw [he]
              rfl
            have hh : hexTok (d :: (ds ++ (w' ++ s))) = none := by
              unfold hexTok
              rw [hs1]
              split
              · rename_i g x h r e
                simp only [Prod.mk.injEq, List.cons.injEq] at e
                simp [hx x (h :: r) e.2.2]
              · rfl
            have hd := takeWhile_append_stop Char.isDigit ds (w' ++ s) h2.2 (fun c hc => (hr c hc).1)
            have hu := head_not (p := isUL) (s := w' ++ s) (fun c hc => (hr c hc).2.1)
            unfold numberTok integerTok
            simp only [List.cons_append]
            rw [hf, hh]
            unfold decTok
            rw [hs1]
            simp only [h2.1, if_true, hd.1, hd.2, hu.1, hu.2, List.nil_append, Option.none_or]
        have hcs : (c :: w) ++ s = ds ++ (w' ++ s) := by rw [e, List.append_assoc]
        have hlen : (c :: w).length = ds.length + w'.length := by rw [e, List.length_append]
        have hds : 1 ≤ ds.length := by
          cases ds with
          | nil => exact absurd rfl h1
          | cons => simp
        simp only [List.length_append] at hn
        rw [hlen] at hn hw
        obtain ⟨m, hm1, hm2⟩ := ih w' (by omega) hall' h6 s hs n (ds.getLastD ' ') (by simp only [List.length_append]; omega)
        refine ⟨m, hm1, ?_⟩
        have hstep := evalScan_num (g := g) (c := c) (s := w ++ s) hnw
          ⟨hne _ (by decide), hne _ (by decide)⟩ (v := ds) (suf := []) (r := w' ++ s) (by
            rw [← List.cons_append, hcs]; exact hnum) n p
        rw [List.cons_append, hstep]
        simp only [posAfter, List.append_nil]
        rw [hm2, ← List.append_assoc, ← e]
        congr 2
        congr 1
        cases w' with
        | nil =>
          rw [List.append_nil] at e
          rw [← e]
          rfl
        | cons b w' =>
          rw [e, getLastD_append_ne ds (b :: w') p (ds.getLastD ' ') (by simp)]
      · have hpl : isPlainC c = true := by
          simp only [isPlainC, hnw, Bool.not_false, Bool.true_and, Bool.and_eq_true, Bool.not_eq_true',
            decide_eq_true_eq]
          refine ⟨⟨by simpa using hdig, ?_⟩, ?_⟩
          · simp only [List.mem_cons, List.not_mem_nil, or_false, not_or]
            refine ⟨?_, ?_, ?_, ?_, ?_, ?_⟩ <;> exact hne _ (by decide)
          · cases hsp : isSpaceC c with
            | false => rfl
            | true => exact absurd hall.1 (by simp [isSpaceC_not_word hsp])
        have hok' : nameOk w = true := by
          cases w with
          | nil => rfl
          | cons b w => simp only [nameOk, Bool.and_eq_true] at hok; exact hok.2
        simp only [List.length_cons] at hw
        simp only [List.length_append, List.length_cons] at hn
        obtain ⟨m, hm1, hm2⟩ := ih w (by omega) hall.2 hok' s hs n c (by simp only [List.length_append]; omega)
        refine ⟨m, hm1, ?_⟩
        rw [List.cons_append, evalScan_plain hpl, hm2]
        simp only [List.cons_append, List.getLastD_cons]

/-! ### The scan of a laid out expression -/

/-- A token of an expression and what is left of it. -/
inductive STok (g : Gram) : Str → Str → Prop
  | num (w v : Str) : intTok w v → STok g w v
  | id (w : Str) : identOk g w = true → nameOk w = true → STok g w w
  | sym (w : Str) : w ∈ kBins ++ [c%"~", c%"(", c%")"] → STok g w w

/-- After the character `q` the same tokens may follow as after `p`. -/
def SameC (p q : Char) : Prop := isIdC q = isIdC p ∧ (isIdC p = false → q = p)

theorem SameC.refl (p : Char) : SameC p p := ⟨rfl, fun _ => rfl⟩

theorem SameC.of_id {p q : Char} (hp : isIdC p = true) (hq : isIdC q = true) : SameC p q :=
  ⟨by rw [hp, hq], fun h => by rw [hp] at h; cases h⟩

theorem pair_idC {a b : Char} (h : [a, b] ∈ pairOps) : isIdC a = false := by
  have h1 : ∀ o ∈ pairOps, o.head?.any isIdC = false := by decide
  simpa using h1 _ h

theorem apart_same {p q c : Char} (h : SameC p q) (ha : apart p c = true) : apart q c = true := by
  cases hp : isIdC p with
  | false => rw [h.2 hp]; exact ha
  | true =>
    have hq : isIdC q = true := by rw [h.1, hp]
    unfold apart at ha ⊢
    rw [hp] at ha
    simp only [Bool.and_eq_true] at ha ⊢
    refine ⟨by rw [hq]; exact ha.1, ?_⟩
    simp only [Bool.not_eq_true', decide_eq_false_iff_not]
    intro e
    rw [pair_idC e] at hq
    cases hq

theorem lay_head {doc : Doc} (hd : doc.tail = []) {p : Char} {s : Str} {tks : List Tk} (h : Lay doc p s tks)
    {c : Char} (hc : s.head? = some c) : apart p c = true := by
  cases h with
  | nil => rw [hd] at hc; simp at hc
  | cons p ws c' w text ts _ hw hc' hp _ hl =>
    cases ws with
    | nil =>
      simp only [List.nil_append, List.cons_append, List.head?_cons, Option.some.injEq] at hc
      subst hc
      exact hp.resolve_left (by simp)
    | cons b ws =>
      simp only [List.cons_append, List.head?_cons, Option.some.injEq] at hc
      subst hc
      simp only [List.all_cons, Bool.and_eq_true] at hw
      exact apart_white _ hw.1

theorem apart_word {p c : Char} (hp : isIdC p = true) (h : apart p c = true) : isIdC c = false ∧ c ≠ '.' := by
  unfold apart at h
  rw [hp] at h
  simp only [Bool.and_eq_true, Bool.true_and] at h
  simpa using h.1

theorem word_last {w : Str} (h : wordOk w = true) (d : Char) : isIdC (w.getLastD d) = true := by
  simp only [wordOk, Bool.and_eq_true, Bool.not_eq_true', List.isEmpty_eq_false_iff] at h
  exact isIdC_of_word (List.all_eq_true.1 h.2 _ (getLastD_mem' w d h.1))

theorem intTok_out {w v : Str} (h : intTok w v) : wordOk v = true ∧ ∃ c v', v = c :: v' ∧ isWhite c = false := by
  obtain ⟨suf, _, _, h⟩ := h
  rcases h with ⟨h1, h2⟩ | ⟨x, ds, rfl, hx, h1, h2⟩
  · have h3 : v.all isWordC = true := by
      rw [List.all_eq_true] at h2 ⊢
      exact fun c hc => (isDigit_facts (h2 c hc)).2.2.2.2.2
    refine ⟨by simp [wordOk, h1, h3], ?_⟩
    cases v with
    | nil => exact absurd rfl h1
    | cons c v =>
      refine ⟨c, v, rfl, ?_⟩
      simp only [List.all_cons, Bool.and_eq_true] at h3
      cases hc : isWhite c with
      | false => rfl
      | true => have := not_word_of_isIdC_false (isIdC_white hc); rw [h3.1] at this; cases this
  · refine ⟨?_, _, _, rfl, by decide⟩
    have h3 : ds.all isWordC = true := by
      rw [List.all_eq_true] at h2 ⊢
      exact fun c hc => isHexC_word (h2 c hc)
    rcases hx with rfl | rfl <;> simp [wordOk, h3] <;> decide

theorem lay_out {doc : Doc} {ws o rest : Str} {c : Char} {o' : Str} {q : Char} {tks : List Tk}
    (ho : o = c :: o') (hw : ws.all isWhite = true) (hc : isWhite c = false)
    (hl : ∀ p', SameC q p' → Lay doc p' rest tks) (hs : SameC q (o.getLastD ' ')) {p : Char}
    (hp : ws ≠ [] ∨ apart p c = true) :
    ∀ p', SameC p p' → Lay doc p' (ws ++ (o ++ rest)) (⟨o, doc.pack (o ++ rest).length⟩ :: tks) := by
  intro p' hpp
  subst ho
  have := Lay.cons (doc := doc) p' ws c o' rest tks _ hw hc (hp.imp id (apart_same hpp)) (fun _ _ => rfl) (hl _ hs)
  rw [List.append_assoc] at this
  exact this

theorem kSyms_facts : ∀ w ∈ kBins ++ [c%"~", c%"(", c%")"], w = c%"+" ∨ w = c%"-" ∨ w = c%"(" ∨
    w.all isPlainC = true := by decide

theorem kSyms_start : ∀ w ∈ kBins ++ [c%"~", c%"(", c%")"],
    w.head?.any (fun c => !c.isDigit && decide (c ≠ '.') && !isSpaceC c) = true := by decide

theorem identStart_digit {c : Char} (h : isIdentStart c = true) : c.isDigit = false := by
  cases hd : c.isDigit with
  | false => rfl
  | true => rw [digit_start hd] at h; cases h

theorem evalScan_lay (hg : gramOk g = true) {doc : Doc} (hd : doc.tail = []) (hpk : doc.pack = g.pack) (N : Nat) :
    ∀ (tks : List Tk), tks.length ≤ N → ∀ (p : Char) (s : Str), Lay doc p s tks →
      ∀ outs, All2 (STok g) (tks.map Tk.w) outs → Clean g (tks.map Tk.w) → ∀ n, s.length + 1 ≤ n →
        ∃ tks', tks'.map Tk.w = outs ∧ (∀ p', SameC p p' → Lay doc p' (evalScan g n ⟨p, s⟩) tks') ∧
          ∀ c ∈ evalScan g n ⟨p, s⟩, c ∈ s := by
  induction N with
  | zero =>
    intro tks hN p s hl outs ho _ n hn
    have : tks = [] := List.length_eq_zero_iff.1 (by omega)
    subst this
    cases hl
    cases ho
    rw [hd, evalScan_nil]
    refine ⟨[], rfl, fun p' _ => ?_, by simp⟩
    have := Lay.nil (doc := doc) p'
    rw [hd] at this
    exact this
  | succ N ih =>
    intro tks hN p s hl outs ho hcl n hn
    cases hl with
    | nil =>
      cases ho
      rw [hd, evalScan_nil]
      refine ⟨[], rfl, fun p' _ => ?_, by simp⟩
      have := Lay.nil (doc := doc) p'
      rw [hd] at this
      exact this
    | cons _ ws c w text ts _ hw hc hp _ hl =>
      simp only [List.length_cons] at hN
      simp only [List.map_cons, Clean] at hcl
      cases ho with
      | cons _ o _ outs h1 ho =>
        simp only [List.length_append, List.length_cons] at hn
        obtain ⟨n, rfl⟩ : ∃ m, n = m + ws.length := ⟨n - ws.length, by omega⟩
        rw [List.append_assoc, evalScan_blanks ws hw]
        generalize ws.getLastD p = p1
        -- a token scanned by itself
        have fin : ∀ m, text.length + 1 ≤ m → (∃ c o', o = c :: o' ∧ isWhite c = false ∧ (∀ q, apart q c = apart q c) ∧
            (ws ≠ [] ∨ apart p c = true)) → SameC ((c :: w).getLastD ' ') (o.getLastD ' ') → (∀ c' ∈ o, c' ∈ c :: w) →
            evalScan g n ⟨p1, c :: w ++ text⟩ = o ++ evalScan g m ⟨(c :: w).getLastD ' ', text⟩ →
            ∃ tks', tks'.map Tk.w = o :: outs ∧
              (∀ p', SameC p p' → Lay doc p' (ws ++ evalScan g n ⟨p1, c :: w ++ text⟩) tks') ∧
              ∀ c' ∈ ws ++ evalScan g n ⟨p1, c :: w ++ text⟩, c' ∈ ws ++ (c :: w ++ text) := by
          rintro m hm ⟨c', o', eo, hc', _, hp'⟩ hsame hsub e
          obtain ⟨tks', e1, h2, h3⟩ := ih ts (by omega) _ _ hl outs ho hcl.2 m hm
          rw [e]
          refine ⟨_ :: tks', by simp [e1], lay_out eo hw hc' h2 hsame hp', ?_⟩
          intro d hd'
          simp only [List.mem_append] at hd' ⊢
          rcases hd' with hd' | hd' | hd'
          · exact .inl hd'
          · exact .inr (.inl (hsub d hd'))
          · exact .inr (.inr (h3 d hd'))
        generalize hcw : c :: w = cw at h1
        cases h1 with
        | num _ hnum =>
          subst hcw
          have hlast := word_last (intTok_word hnum) ' '
          have hr : ∀ d, text.head? = some d → isIdC d = false ∧ d ≠ '.' :=
            fun d hd' => apart_word hlast (lay_head hd hl hd')
          obtain ⟨suf, e, hv⟩ := numberTok_int hnum text hr
          obtain ⟨hov, c', o', eo, hc'⟩ := intTok_out hnum
          obtain ⟨n, rfl⟩ : ∃ m, n = m + 1 := ⟨n - 1, by omega⟩
          have hcc : c' = c := by
            rw [eo] at e
            simp only [List.cons_append, List.cons.injEq] at e
            exact e.1.symm
          have hq : c ≠ '"' ∧ c ≠ '\'' := by
            obtain ⟨d, w', e', hdig⟩ := intTok_start hnum
            simp only [List.cons.injEq] at e'
            rw [← e'.1] at hdig
            constructor <;> (rintro rfl; exact absurd hdig (by decide))
          have hstep := evalScan_num (g := g) hc hq (s := w ++ text) hv n p1
          refine fin n (by omega) ⟨c', o', eo, hc', fun _ => rfl, by rw [hcc]; exact hp⟩
            (.of_id hlast (word_last hov ' ')) ?_ ?_
          · intro d hd'
            have e : c :: w = o ++ suf := e
            rw [e]
            exact List.mem_append_left _ hd'
          · rw [List.cons_append, hstep]
            rw [← e]
            rfl
        | id hid hok =>
          have hword := (identOk_word hid).1
          have hlast := word_last hword ' '
          subst hcw
          have hr : ∀ d, text.head? = some d → isIdC d = false ∧ d ≠ '.' :=
            fun d hd' => apart_word hlast (lay_head hd hl hd')
          have hall : (c :: w).all isWordC = true := by
            simp only [wordOk, Bool.and_eq_true] at hword
            exact hword.2
          obtain ⟨m, hm1, hm2⟩ := evalScan_name (g := g) _ (c :: w) (Nat.le_refl _) hall hok text hr n p1 (by
            simp only [List.length_append, List.length_cons]; omega)
          exact fin m hm1 ⟨c, w, rfl, hc, fun _ => rfl, hp⟩ (.refl _) (fun _ h => h) hm2
        | sym hsym =>
          subst hcw
          have sign : ∀ sg : Char, (sg = '+' ∨ sg = '-') → c :: w = [sg] → ∃ tks', tks'.map Tk.w = (c :: w) :: outs ∧
              (∀ p', SameC p p' → Lay doc p' (ws ++ evalScan g n ⟨p1, c :: w ++ text⟩) tks') ∧
              ∀ c' ∈ ws ++ evalScan g n ⟨p1, c :: w ++ text⟩, c' ∈ ws ++ (c :: w ++ text) := by
            intro sg hsg e
            simp only [List.cons.injEq] at e
            obtain ⟨rfl, rfl⟩ := e
            have hq : c ≠ '"' ∧ c ≠ '\'' := by rcases hsg with rfl | rfl <;> decide
            have hcp : c ≠ '(' := by rcases hsg with rfl | rfl <;> decide
            obtain ⟨n, rfl⟩ : ∃ m, n = m + 1 := ⟨n - 1, by omega⟩
            have alone : numberTok (c :: text) = none → ∃ tks', tks'.map Tk.w = [c] :: outs ∧
                (∀ p', SameC p p' → Lay doc p' (ws ++ evalScan g (n + 1) ⟨p1, [c] ++ text⟩) tks') ∧
                ∀ c' ∈ ws ++ evalScan g (n + 1) ⟨p1, [c] ++ text⟩, c' ∈ ws ++ ([c] ++ text) := by
              intro hnn
              exact fin n (by omega) ⟨c, [], rfl, hc, fun _ => rfl, hp⟩ (.refl _) (fun _ h => h)
                (evalScan_step hc hq hnn (evalCast_char hc hcp p1 text) n)
            cases hl with
            | nil =>
              refine alone ?_
              have := signTok_read hsg (ws := []) (s := []) rfl (by simp)
              rw [hd]
              exact numberTok_no this (by simp)
            | cons _ ws2 c2 w2 text2 ts2 _ hw2 hc2 hp2 _ hl2 =>
              have apart2 : c2.isDigit = false → c2 ≠ '.' → isSpaceC c2 = false → numberTok (c :: (ws2 ++ (c2 :: w2) ++ text2)) = none := by
                intro k1 k2 k3
                have hs2 : signTok (c :: (ws2 ++ (c2 :: w2 ++ text2))) = (c :: ws2, c2 :: w2 ++ text2) :=
                  signTok_read hsg hw2 (by
                    intro d hd'
                    simp only [List.cons_append, List.head?_cons, Option.some.injEq] at hd'
                    rw [← hd']
                    exact k3)
                rw [List.append_assoc]
                refine numberTok_no hs2 ?_
                intro d hd'
                simp only [List.cons_append, List.head?_cons, Option.some.injEq] at hd'
                rw [← hd']
                exact ⟨k1, k2⟩
              cases ho with
              | cons _ o2 _ outs2 k1 ho2 =>
                generalize hcw2 : c2 :: w2 = cw2 at k1
                cases k1 with
                | id hid hok =>
                  subst hcw2
                  refine alone (apart2 ?_ ?_ ?_)
                  · have := (identOk_word hid).2
                    exact identStart_digit (by simpa using this)
                  · have := (identOk_word hid).2
                    rintro rfl
                    exact absurd this (by simp; decide)
                  · have := (identOk_word hid).1
                    simp only [wordOk, Bool.and_eq_true, List.all_cons] at this
                    cases hsp : isSpaceC c2 with
                    | false => rfl
                    | true => exact absurd this.2.1 (by simp [isSpaceC_not_word hsp])
                | sym hsym2 =>
                  subst hcw2
                  have := kSyms_start _ hsym2
                  simp only [List.head?_cons, Option.any_some, Bool.and_eq_true, Bool.not_eq_true', decide_eq_true_eq] at this
                  exact alone (apart2 this.1.1 this.1.2 this.2)
                | num _ hnum =>
                  subst hcw2
                  have hlast := word_last (intTok_word hnum) ' '
                  have hr : ∀ d, text2.head? = some d → isIdC d = false ∧ d ≠ '.' :=
                    fun d hd' => apart_word hlast (lay_head hd hl2 hd')
                  obtain ⟨suf, e, hv⟩ := numberTok_signed hsg hw2 hnum text2 hr
                  obtain ⟨hov, c', o', eo, hc'⟩ := intTok_out hnum
                  have hcc : c' = c2 := by
                    rw [eo] at e
                    simp only [List.cons_append, List.cons.injEq] at e
                    exact e.1.symm
                  simp only [List.length_append, List.length_cons, List.length_nil] at hn hN
                  obtain ⟨tks', e1, h2, h3⟩ := ih ts2 (by omega) _ _ hl2 outs2 ho2 hcl.2.2 n (by omega)
                  have hstep := evalScan_num (g := g) hc hq (s := ws2 ++ (c2 :: w2 ++ text2)) hv n p1
                  have hpos : posAfter (c :: ws2 ++ o2 ++ suf) text2 = ⟨(c2 :: w2).getLastD ' ', text2⟩ := by
                    rw [List.append_assoc, ← e]
                    unfold posAfter
                    rw [getLastD_append_ne _ (c2 :: w2) _ ' ' (by simp)]
                  rw [hpos] at hstep
                  have hstep' : evalScan g (n + 1) ⟨p1, [c] ++ (ws2 ++ (c2 :: w2) ++ text2)⟩ =
                      [c] ++ (ws2 ++ (o2 ++ evalScan g n ⟨(c2 :: w2).getLastD ' ', text2⟩)) := by
                    rw [List.append_assoc ws2]
                    simp only [List.cons_append, List.nil_append] at hstep ⊢
                    rw [hstep]
                    simp
                  rw [hstep']
                  have l2 := lay_out eo hw2 hc' h2 (.of_id hlast (word_last hov ' ')) (p := c) (by rw [hcc]; exact hp2)
                  have l1 := lay_out (o := [c]) rfl hw hc l2 (.refl c) hp
                  refine ⟨_, ?_, l1, ?_⟩
                  · simp [e1]
                  · intro d hd'
                    simp only [List.mem_append] at hd' ⊢
                    rcases hd' with hd' | hd' | hd' | hd' | hd'
                    · exact .inl hd'
                    · exact .inr (.inl hd')
                    · exact .inr (.inr (.inl (.inl hd')))
                    · refine .inr (.inr (.inl (.inr ?_)))
                      have e : c2 :: w2 = o2 ++ suf := e
                      rw [e]
                      exact List.mem_append_left _ hd'
                    · exact .inr (.inr (.inr (h3 d hd')))
          rcases kSyms_facts _ hsym with e | e | e | hpl
          · exact sign '+' (.inl rfl) e
          · exact sign '-' (.inr rfl) e
          · simp only [List.cons.injEq] at e
            obtain ⟨rfl, rfl⟩ := e
            obtain ⟨n, rfl⟩ : ∃ m, n = m + 1 := ⟨n - 1, by omega⟩
            have hlit : lit '(' ⟨p1, '(' :: text⟩ = some ⟨'(', text⟩ := by simp [lit, skip_plain hc]
            have hcf : CF g ⟨'(', text⟩ := castFail hg hpk _ ts ⟨'(', text⟩ (Nat.le_refl _) hl (hcl.1 rfl) hcl.2
            refine fin n (by omega) ⟨_, _, rfl, hc, fun _ => rfl, hp⟩ (.refl _) (fun _ h => h) ?_
            exact evalScan_step hc (by decide) (numberTok_no (sg := []) (s' := '(' :: text) (by
              simp [signTok, show isSpaceC '(' = false from by decide]) (by intro d hd'; simp only [List.head?_cons, Option.some.injEq] at hd'; subst hd'; decide)) (evalCast_no hcf hlit) n
          · obtain ⟨m, rfl⟩ : ∃ m, n = m + (c :: w).length := ⟨n - (w.length + 1), by simp only [List.length_cons]; omega⟩
            refine fin m (by simp only [List.length_cons] at hn; omega) ⟨_, _, rfl, hc, fun _ => rfl, hp⟩ (.refl _) (fun _ h => h) ?_
            rw [evalScan_plains _ hpl]
            rfl

/-! ### The tokens of an expression -/

theorem lit_intTok {v suf : Str} (h : litOk v) (hs : suf.all isUL = true) : intTok (v ++ suf) v := by
  refine ⟨suf, rfl, hs, ?_⟩
  rcases h with ⟨h1, h2, _⟩ | h
  · exact .inl ⟨h1, h2⟩
  · exact .inr h

theorem bin_sym {o : KBin} (h : o ≠ .div) : o.text ∈ kBins := by
  revert h
  cases o <;> decide

theorem un_sym (o : KUn) : o.text ∈ [c%"+", c%"-", c%"~", c%"("] := by
  cases o <;> decide

theorem stok_sym {w : Str} (h : w ∈ kBins) : STok g w w := .sym w (List.mem_append_left _ h)

theorem toks_stok (env : Str → Option Int) : ∀ e : KE, e.Ok g → e.Frag env → All2 (STok g) e.toks (otoks e)
  | .lit v s, h, _ => .cons _ _ _ _ (.num _ _ (lit_intTok h.1 h.2.1)) .nil
  | .id w, h, _ => .cons _ _ _ _ (.id w h.1 h.2.1) .nil
  | .par e, h, hf => .cons _ _ _ _ (.sym _ (by decide)) ((toks_stok env e h.1 hf).append (.cons _ _ _ _ (.sym _ (by decide)) .nil))
  | .un o e, h, hf => .cons _ _ _ _ (.sym _ (by cases o <;> decide)) (toks_stok env e h hf)
  | .bin o a b, h, hf =>
    (toks_stok env a h.1 hf.2.1).append (.cons _ _ _ _ (stok_sym (bin_sym hf.1)) (toks_stok env b h.2 hf.2.2.1))

theorem toks_start (env : Str → Option Int) : ∀ e : KE, e.Ok g → e.Frag env →
    ∃ t ts, e.toks = t :: ts ∧ OpStart g t ∧
      (identOk g t = true → e = .id t ∨ ∃ u t' ts', ts = u :: t' :: ts' ∧ u ∈ kBins ∧ OpStart g t')
  | .lit v s, h, _ => by
    refine ⟨_, _, rfl, .inr (.inl ⟨⟨v, lit_intTok h.1 h.2.1⟩, h.2.2.1⟩), ?_⟩
    intro hid
    obtain ⟨c, w', e, hdig⟩ := intTok_start (lit_intTok h.1 h.2.1)
    have := (identOk_word hid).2
    rw [e] at this
    have := identStart_digit (c := c) (by simpa using this)
    rw [hdig] at this
    cases this
  | .id w, h, _ => ⟨_, _, rfl, .inl h.1, fun _ => .inl rfl⟩
  | .par e, h, hf => by
    refine ⟨_, _, rfl, .inr (.inr (by decide)), ?_⟩
    intro hid
    exact absurd (identOk_word hid).1 (by decide)
  | .un o e, h, hf => by
    refine ⟨_, _, rfl, .inr (.inr (un_sym o)), ?_⟩
    intro hid
    have := (identOk_word hid).1
    cases o <;> exact absurd this (by decide)
  | .bin o a b, h, hf => by
    obtain ⟨t, ts, e, h1, h2⟩ := toks_start env a h.1 hf.2.1
    obtain ⟨t', ts', e', h1', _⟩ := toks_start env b h.2 hf.2.2.1
    refine ⟨t, ts ++ o.text :: b.toks, by simp [KE.toks, e], h1, ?_⟩
    intro hid
    refine .inr ?_
    rcases h2 hid with rfl | ⟨u, t2, ts2, e2, hu, ht2⟩
    · simp only [KE.toks, List.cons.injEq] at e
      rw [← e.2, e']
      exact ⟨_, _, _, rfl, bin_sym hf.1, h1'⟩
    · rw [e2]
      exact ⟨_, _, _, rfl, hu, ht2⟩

theorem word_ne_lp {w : Str} (h : wordOk w = true) : w ≠ c%"(" := by
  rintro rfl
  exact absurd h (by decide)

theorem toks_clean (env : Str → Option Int) : ∀ e : KE, e.Ok g → e.Frag env → ∀ r, Clean g r → Clean g (e.toks ++ r)
  | .lit v s, h, _, r, hr => ⟨fun e => absurd e (word_ne_lp (intTok_word (lit_intTok h.1 h.2.1))), hr⟩
  | .id w, h, _, r, hr => ⟨fun e => absurd e (word_ne_lp (identOk_word h.1).1), hr⟩
  | .par e, h, hf, r, hr => by
    have h1 : Clean g (c%")" :: r) := ⟨fun e => absurd e (by decide), hr⟩
    have h2 := toks_clean env e h.1 hf _ h1
    simp only [KE.toks, List.cons_append, List.append_assoc, List.nil_append]
    refine ⟨fun _ => ?_, h2⟩
    obtain ⟨t, ts, e1, k1, k2⟩ := toks_start env e h.1 hf
    rw [e1, List.cons_append]
    cases ts with
    | nil =>
      refine ⟨t, _, _, rfl, k1, fun hid => ?_⟩
      rcases k2 hid with e2 | ⟨u, t', ts', e2, _⟩
      · exact absurd e2 (h.2 t)
      · cases e2
    | cons u ts =>
      refine ⟨t, u, ts ++ c%")" :: r, rfl, k1, fun hid => ?_⟩
      rcases k2 hid with e2 | ⟨u', t', ts', e2, hu, ht'⟩
      · exact absurd e2 (h.2 t)
      · simp only [List.cons.injEq] at e2
        obtain ⟨rfl, rfl⟩ := e2
        refine ⟨hu, t', ?_⟩
        cases ts' with
        | nil => exact ⟨_, _, rfl, ht'⟩
        | cons a ts' => exact ⟨_, _, rfl, ht'⟩
  | .un o e, h, hf, r, hr => by
    refine ⟨fun e' => ?_, toks_clean env e h hf r hr⟩
    cases o <;> exact absurd e' (by decide)
  | .bin o a b, h, hf, r, hr => by
    simp only [KE.toks, List.append_assoc, List.cons_append]
    refine toks_clean env a h.1 hf.2.1 _ ⟨fun e' => ?_, toks_clean env b h.2 hf.2.2.1 r hr⟩
    have := bin_sym hf.1
    rw [e'] at this
    exact absurd this (by decide)

/-- The packing recorded with the tokens plays no role. -/
theorem lay_repack {doc doc' : Doc} (ht : doc'.tail = doc.tail) {p : Char} {s : Str} {tks : List Tk}
    (h : Lay doc p s tks) : ∃ tks', tks'.map Tk.w = tks.map Tk.w ∧ Lay doc' p s tks' := by
  induction h with
  | nil p => exact ⟨[], rfl, by rw [← ht]; exact .nil p⟩
  | cons p ws c w text ts _ hw hc hp _ hl ih =>
    obtain ⟨tks', e, h⟩ := ih
    exact ⟨_ :: tks', by simp [e], .cons p ws c w text tks' _ hw hc hp (fun _ _ => rfl) h⟩

/-- What Python gets is the text of the expression without suffixes. -/
theorem evalText_value (hg : gramOk g = true) (tbl : Dict Str DefVal) (py : Dict Str DefVal → Str → PVal)
    (e : KE) (raw : Str) (v : Int) (ht : TextOf (strip raw) e.toks) (hok : e.Ok g) (hgr : e.Grammar)
    (hf : e.Frag (intsOf tbl)) (hv : e.value (intsOf tbl) = some v) : evalExpr g py tbl raw = .int v := by
  obtain ⟨⟨tks, htk, hl⟩, hnl⟩ := ht
  obtain ⟨tks1, e1, hl1⟩ := lay_repack (doc := ⟨[], fun _ => none⟩) (doc' := ⟨[], g.pack⟩) rfl hl
  rw [htk] at e1
  have h1 := toks_stok (intsOf tbl) e hok hf
  have h2 := toks_clean (intsOf tbl) e hok hf [] trivial
  rw [List.append_nil] at h2
  rw [← e1] at h1 h2
  obtain ⟨tks2, e2, hl2, hc2⟩ := evalScan_lay hg (doc := ⟨[], g.pack⟩) rfl rfl _ tks1 (Nat.le_refl _) _ _ hl1 _ h1 h2
    ((strip raw).length + 1) (Nat.le_refl _)
  have hl3 := hl2 ' ' (.refl _)
  have hk : All2 KTokOf (tks2.map Tk.w) (ktoks e) := by rw [e2]; exact otoks_ktoks g _ e hok hf
  have hn : noPow (tks2.map Tk.w) = true := by
    rw [e2]
    have := noPow_otoks g e hok [] rfl
    rwa [List.append_nil] at this
  have htok : kTok ((evalText g raw).length + 1) (evalText g raw) = some (ktoks e) :=
    kTok_lay rfl hl3 _ hk hn (fun c hc => hnl c (hc2 c hc)) _ (Nat.le_refl _)
  have henv : ∀ w v, intsOf tbl w = some v → (nameVal tbl w).bind id = some v := by
    intro w v h
    unfold intsOf at h
    unfold nameVal
    split at h
    · rename_i i hd'
      rw [hd']
      simpa using h
    · cases h
  have hplain : kPlain tbl (ktoks e) = true := by
    have := (kPlain_ktoks g tbl (intsOf tbl) (fun w v h => by
      have := henv w v h
      cases hx : nameVal tbl w with
      | none => rw [hx] at this; cases this
      | some _ => rfl) e v hok hv [] (by simp) rfl).1
    rwa [List.append_nil] at this
  have hcmp := kCmp_ktoks tbl (intsOf tbl) henv e v hgr hf hv
  have hval := kEval_value (intsOf tbl) henv e v hgr hf hv
  have hne : evalText g raw ≠ [] := by
    intro h0
    rw [h0] at htok
    obtain ⟨t, ts, e3, _⟩ := otoks_start g e hok
    rw [e3] at e2
    unfold evalText at h0
    rw [h0] at hl3
    have := lay_length hl3
    rw [← List.length_map (f := Tk.w), e2] at this
    simp at this
  unfold evalExpr
  rw [if_neg hne]
  unfold pyEvalK
  simp only [htok, hplain, hcmp, Bool.and_self, if_true, hval]

end Pyclib
