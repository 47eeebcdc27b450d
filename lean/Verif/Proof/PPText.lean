import Verif.Proof.PPExpr
/-! The textual steps in the evaluation of `#if` conditions: `defined`, macro expansion, translation to
Python, tokenization. -/
namespace Pyclib
open Spec

/-! ### Alternation of operands and operators -/

/-- May start an operand. -/
def Spec.CTok.isStart : CTok → Bool
  | .num _ | .id _ | .defd _ _ | .lp | .bang => true
  | _ => false

/-- May end an operand. -/
def Spec.CTok.isEnd : CTok → Bool
  | .num _ | .id _ | .defd _ _ | .rp => true
  | _ => false

/-- After a token that ends (or does not end) an operand comes one that does not start (starts) one; at
the end an operand has just been completed. -/
def Fol : Bool → List CTok → Prop
  | b, [] => b = true
  | b, t :: l => t.isStart = !b ∧ Fol t.isEnd l

theorem fol_toks (e : CE) (l : List CTok) (h : Fol true l) : Fol false (e.toks ++ l) := by
  induction e generalizing l with
  | num n => exact ⟨rfl, h⟩
  | id w => exact ⟨rfl, h⟩
  | defd w f => exact ⟨rfl, h⟩
  | par e ih =>
    show Fol false (.lp :: ((e.toks ++ [.rp]) ++ l))
    rw [List.append_assoc]
    exact ⟨rfl, ih _ ⟨rfl, h⟩⟩
  | neg e ih => exact ⟨rfl, ih _ h⟩
  | cmp op a b iha ihb =>
    show Fol false ((a.toks ++ .cmp op :: b.toks) ++ l)
    rw [List.append_assoc]; exact iha _ ⟨rfl, ihb _ h⟩
  | arith op a b iha ihb =>
    show Fol false ((a.toks ++ .arith op :: b.toks) ++ l)
    rw [List.append_assoc]; exact iha _ ⟨rfl, ihb _ h⟩
  | and a b iha ihb =>
    show Fol false ((a.toks ++ .and :: b.toks) ++ l)
    rw [List.append_assoc]; exact iha _ ⟨rfl, ihb _ h⟩
  | or a b iha ihb =>
    show Fol false ((a.toks ++ .or :: b.toks) ++ l)
    rw [List.append_assoc]; exact iha _ ⟨rfl, ihb _ h⟩

/-- Well-formed tokens. -/
def TokOk : CTok → Prop
  | .id w => IsIdent w ∧ w ≠ c%"defined"
  | .defd w _ => IsIdent w
  | .cmp .ne => False
  | _ => True

theorem toks_ok (e : CE) (hf : e.Frag) (hg : e.Grammar) : ∀ t ∈ e.toks, TokOk t := by
  induction e with
  | num n => simp [CE.toks, TokOk]
  | id w => intro t ht; simp only [CE.toks, List.mem_singleton] at ht; subst ht; exact hg
  | defd w f => intro t ht; simp only [CE.toks, List.mem_singleton] at ht; subst ht; exact hg
  | par e ih =>
    intro t ht
    simp only [CE.toks, List.mem_cons, List.mem_append, List.not_mem_nil, or_false] at ht
    rcases ht with rfl | ht | rfl
    · trivial
    · exact ih hf hg t ht
    · trivial
  | neg e ih =>
    intro t ht
    simp only [CE.toks, List.mem_cons] at ht
    rcases ht with rfl | ht
    · trivial
    · exact ih hf hg.2 t ht
  | cmp op a b iha ihb =>
    intro t ht
    simp only [CE.toks, List.mem_cons, List.mem_append] at ht
    rcases ht with ht | rfl | ht
    · exact iha hf.2.2.2.2.2.2.2.1 hg.2.2.1 t ht
    · have := hf.1
      cases op <;> first | trivial | exact (this rfl).elim
    · exact ihb hf.2.2.2.2.2.2.2.2 hg.2.2.2 t ht
  | arith op a b iha ihb =>
    intro t ht
    simp only [CE.toks, List.mem_cons, List.mem_append] at ht
    rcases ht with ht | rfl | ht
    · exact iha hf.2.2.2.2.1 hg.2.2.1 t ht
    · trivial
    · exact ihb hf.2.2.2.2.2 hg.2.2.2 t ht
  | and a b iha ihb =>
    intro t ht
    simp only [CE.toks, List.mem_cons, List.mem_append] at ht
    rcases ht with ht | rfl | ht
    · exact iha hf.1 hg.2.2.1 t ht
    · trivial
    · exact ihb hf.2 hg.2.2.2 t ht
  | or a b iha ihb =>
    intro t ht
    simp only [CE.toks, List.mem_cons, List.mem_append] at ht
    rcases ht with ht | rfl | ht
    · exact iha hf.1 hg.2.1 t ht
    · trivial
    · exact ihb hf.2 hg.2.2 t ht

/-! ### Characters -/

theorem isWordC_of_digit {c : Char} (h : c.isDigit = true) : isWordC c = true := by
  simp [isWordC, Char.isAlphanum, h]

theorem digit_facts {c : Char} (h : c.isDigit = true) :
    c ≠ ' ' ∧ c ≠ '\t' ∧ c ≠ '!' ∧ c ≠ '&' ∧ c ≠ '|' ∧ isIdentStart c = false ∧ isWordC c = true := by
  refine ⟨?_, ?_, ?_, ?_, ?_, ?_, isWordC_of_digit h⟩
  · rintro rfl; simp [Char.isDigit] at h
  · rintro rfl; simp [Char.isDigit] at h
  · rintro rfl; simp [Char.isDigit] at h
  · rintro rfl; simp [Char.isDigit] at h
  · rintro rfl; simp [Char.isDigit] at h
  · have : c = Char.ofNat c.toNat := (Char.ofNat_toNat c).symm
    have h2 : 48 ≤ c.toNat ∧ c.toNat ≤ 57 := by
      simp only [Char.isDigit, Bool.and_eq_true, decide_eq_true_eq, UInt32.le_iff_toNat_le] at h
      exact h
    obtain ⟨a, b⟩ := h2
    have h3 : c.toNat = 48 ∨ c.toNat = 49 ∨ c.toNat = 50 ∨ c.toNat = 51 ∨ c.toNat = 52 ∨ c.toNat = 53 ∨
      c.toNat = 54 ∨ c.toNat = 55 ∨ c.toNat = 56 ∨ c.toNat = 57 := by omega
    rcases h3 with h | h | h | h | h | h | h | h | h | h <;> (rw [this, h]; rfl)

theorem natDigits_digit {n : Nat} {c : Char} (h : c ∈ natDigits n) : c.isDigit = true :=
  Nat.isDigit_of_mem_toDigits (by decide) (by decide) h

theorem natDigits_nonempty (n : Nat) : natDigits n ≠ [] := Nat.toDigits_ne_nil

/-- No leading zero except for zero itself. -/
theorem natDigits_head (n : Nat) (h : n ≠ 0) : (natDigits n).head? ≠ some '0' := by
  unfold natDigits
  induction n using Nat.strongRecOn with
  | ind n ih =>
    by_cases hn : n < 10
    · rw [Nat.toDigits_of_lt_base hn]
      match n, hn, h with
      | 1, _, _ | 2, _, _ | 3, _, _ | 4, _, _ | 5, _, _ | 6, _, _ | 7, _, _ | 8, _, _ | 9, _, _ => decide
    · rw [Nat.toDigits_of_base_le (by decide) (by omega)]
      have := ih (n / 10) (by omega) (by omega)
      rw [List.head?_append]
      cases hh : (Nat.toDigits 10 (n / 10)).head? with
      | none => rw [List.head?_eq_none_iff] at hh; exact (Nat.toDigits_ne_nil hh).elim
      | some c => rw [hh] at this; simpa using this

theorem numTok_natDigits (n : Nat) : numTok (natDigits n) = .num n := by
  unfold numTok
  rw [digitsVal_natDigits]
  by_cases h : n = 0
  · subst h
    have : natDigits 0 = ['0'] := rfl
    simp [this]
  · simp [natDigits_head n h]

theorem ident_first {w : Str} (h : IsIdent w) : ∃ c r, w = c :: r ∧ isIdentStart c = true ∧ isWordC c = true ∧
    ∀ d ∈ r, isWordC d = true := by
  obtain ⟨c, r, rfl, h1, h2⟩ := h
  refine ⟨c, r, rfl, h1, ?_, h2⟩
  revert h1
  simp only [isIdentStart, isWordC, Char.isAlphanum, Char.isAlpha]
  simp
  intro h
  rcases h with h | h
  · exact .inl (.inl h)
  · exact .inr h

theorem ident_word {w : Str} (h : IsIdent w) : w ≠ [] ∧ ∀ c ∈ w, isWordC c = true := by
  obtain ⟨c, r, rfl, _, h1, h2⟩ := ident_first h
  refine ⟨by simp, ?_⟩
  intro d hd
  rcases List.mem_cons.1 hd with rfl | hd
  · exact h1
  · exact h2 d hd

/-! ### Step 1: `defined` -/

theorem definedLoop_nonkw (isDef : Str → Bool) (n : Nat) (prev : Bool) (c : Char) (s : Str)
    (h : isKwChar c = false) :
    definedLoop isDef (n + 1) prev (c :: s) = c :: definedLoop isDef n false s := by
  have hd : c ≠ 'd' := by rintro rfl; revert h; decide
  have : startsWith (c :: s) c%"defined" = false := by simp [startsWith, hd]
  simp [definedLoop, this, h]

theorem definedLoop_text (isDef : Str → Bool) (t : Str) (h : ∀ c ∈ t, isKwChar c = false) (ht : t ≠ [])
    (n : Nat) (prev : Bool) (s : Str) :
    definedLoop isDef (n + t.length) prev (t ++ s) = t ++ definedLoop isDef n false s := by
  induction t generalizing prev with
  | nil => exact (ht rfl).elim
  | cons c t ih =>
    have e : n + (c :: t).length = (n + t.length) + 1 := by simp; omega
    rw [e, List.cons_append, definedLoop_nonkw _ _ _ _ _ (h c (by simp))]
    cases t with
    | nil => simp
    | cons d t => rw [ih (fun x hx => h x (by simp [hx])) (by simp)]; rfl

theorem definedLoop_blanks (isDef : Str → Bool) (m n : Nat) (prev : Bool) (s : Str)
    (hp : prev = false) :
    definedLoop isDef (n + m) prev (blanks m ++ s) = blanks m ++ definedLoop isDef n false s := by
  cases m with
  | zero => simp [blanks, hp]
  | succ m =>
    have := definedLoop_text isDef (blanks (m + 1)) (by
      intro c hc
      have := List.eq_of_mem_replicate hc
      subst this; decide) (by simp [blanks, List.replicate_succ]) n prev s
    simpa [blanks] using this

theorem definedLoop_inword (isDef : Str → Bool) (w : Str) (h : ∀ c ∈ w, isKwChar c = true) (n : Nat) (s : Str) :
    definedLoop isDef (n + w.length) true (w ++ s) = w ++ definedLoop isDef n true s := by
  induction w with
  | nil => rfl
  | cons c w ih =>
    have e : n + (c :: w).length = (n + w.length) + 1 := by simp; omega
    have hk : isKwChar c = true := h c (by simp)
    rw [e, List.cons_append]
    simp only [definedLoop, Bool.not_true, Bool.false_and]
    rw [hk, ih (fun x hx => h x (by simp [hx]))]
    rfl

theorem startsWith_defined {w s : Str} (hs : ∀ c ∈ s.head?, isKwChar c = false) (h : startsWith (w ++ s) c%"defined" = true) :
    ∃ w', w = c%"defined" ++ w' := by
  rw [startsWith_iff] at h
  obtain ⟨r, h⟩ := h
  have key : ∀ (p w s r : Str), w ++ s = p ++ r → (∀ c ∈ p, isKwChar c = true) →
      (∀ c ∈ s.head?, isKwChar c = false) → ∃ w', w = p ++ w' := by
    intro p
    induction p with
    | nil => intro w s r _ _ _; exact ⟨w, rfl⟩
    | cons c p ih =>
      intro w s r h hp hs
      cases w with
      | nil =>
        simp at h
        have := hs c (by simp [h])
        rw [hp c (by simp)] at this; cases this
      | cons d w =>
        simp at h
        obtain ⟨w', rfl⟩ := ih w s r h.2 (fun x hx => hp x (by simp [hx])) hs
        exact ⟨w', by simp [h.1]⟩
  exact key _ _ _ _ h (by decide) hs

theorem definedLoop_kw (isDef : Str → Bool) (w : Str) (hne : w ≠ []) (h : ∀ c ∈ w, isKwChar c = true)
    (hd : w ≠ c%"defined") (n : Nat) (s : Str) (hs : ∀ c ∈ s.head?, isKwChar c = false) :
    definedLoop isDef (n + w.length) false (w ++ s) = w ++ definedLoop isDef n true s := by
  cases w with
  | nil => exact (hne rfl).elim
  | cons c w =>
    have e : n + (c :: w).length = (n + w.length) + 1 := by simp; omega
    have hk : isKwChar c = true := h c (by simp)
    have hcopy : c :: definedLoop isDef (n + w.length) (isKwChar c) (w ++ s) =
        (c :: w) ++ definedLoop isDef n true s := by
      rw [hk, definedLoop_inword _ _ (fun x hx => h x (by simp [hx]))]; rfl
    rw [e, List.cons_append]
    simp only [definedLoop]
    split
    · rename_i hst
      have hst' : startsWith ((c :: w) ++ s) c%"defined" = true := by
        simp only [Bool.not_false, Bool.true_and] at hst; exact hst
      obtain ⟨w', hw'⟩ := startsWith_defined hs hst'
      cases w' with
      | nil => exact (hd (by simpa using hw')).elim
      | cons d w' =>
        have hdrop : (c :: (w ++ s)).drop 7 = d :: (w' ++ s) := by
          rw [← List.cons_append, hw']; rfl
        have hkd : isKwChar d = true := by
          exact h d (by rw [hw']; simp)
        simp only [hdrop, hkd, if_true]
        exact hcopy
    · exact hcopy

theorem definedLoop_word (isDef : Str → Bool) (w : Str) (hne : w ≠ []) (h : ∀ c ∈ w, isWordC c = true)
    (hd : w ≠ c%"defined") (n : Nat) (s : Str) (hs : ∀ c ∈ s.head?, isKwChar c = false) :
    definedLoop isDef (n + w.length) false (w ++ s) = w ++ definedLoop isDef n true s :=
  definedLoop_kw isDef w hne (fun c hc => by simp [isKwChar, h c hc]) hd n s hs

theorem skipBlank_blanks (m : Nat) (s : Str) (h : ∀ c ∈ s.head?, c ≠ ' ' ∧ c ≠ '\t') :
    skipBlank (blanks m ++ s) = s := by
  induction m with
  | zero =>
    cases s with
    | nil => rfl
    | cons c s => have := h c (by simp); simp [skipBlank, blanks, this]
  | succ m ih =>
    have : skipBlank (blanks (m + 1) ++ s) = skipBlank (blanks m ++ s) := by
      simp [skipBlank, blanks, List.replicate_succ]
    rw [this, ih]

theorem ident_not_blank {w : Str} (h : IsIdent w) (r : Str) : ∀ c ∈ (w ++ r).head?, c ≠ ' ' ∧ c ≠ '\t' := by
  obtain ⟨c, q, rfl, hc, _⟩ := h
  intro d hd
  simp at hd; subst hd
  exact ⟨by rintro rfl; revert hc; decide, by rintro rfl; revert hc; decide⟩

theorem identTok_ident {w : Str} (h : IsIdent w) (m : Nat) (r : Str) (hr : ∀ c ∈ r.head?, isWordC c = false) :
    identTok (blanks m ++ (w ++ r)) = some (w, r) := by
  unfold identTok
  rw [skipBlank_blanks _ _ (ident_not_blank h r)]
  obtain ⟨c, q, rfl, hc, hq⟩ := h
  have := takeWhile_split hq hr
  simp [hc, this]

theorem definedArg_form (w : Str) (f : DForm) (hw : IsIdent w) (r : Str)
    (hr : ∀ c ∈ r.head?, isWordC c = false) :
    ∃ a, (CTok.defd w f).text = c%"defined" ++ a ∧ (∃ d a', a = d :: a' ∧ isKwChar d = false) ∧
      definedArg (a ++ r) = some (w, r) := by
  cases f with
  | plain k =>
    refine ⟨blanks (k + 1) ++ w, by simp [CTok.text], ⟨' ', blanks k ++ w, by simp [blanks, List.replicate_succ], by decide⟩, ?_⟩
    unfold definedArg
    rw [List.append_assoc, identTok_ident hw _ _ hr]
  | paren i j k =>
    refine ⟨blanks i ++ '(' :: (blanks j ++ w ++ blanks k ++ [')']), by simp [CTok.text], ?_, ?_⟩
    · cases i with
      | zero => exact ⟨'(', blanks j ++ w ++ blanks k ++ [')'], by simp [blanks], by decide⟩
      | succ i => exact ⟨' ', _, by simp [blanks, List.replicate_succ]; rfl, by decide⟩
    · unfold definedArg
      have e : blanks i ++ '(' :: (blanks j ++ w ++ blanks k ++ [')']) ++ r =
          blanks i ++ '(' :: (blanks j ++ (w ++ (blanks k ++ ')' :: r))) := by simp
      rw [e]
      have h1 : skipBlank (blanks i ++ '(' :: (blanks j ++ (w ++ (blanks k ++ ')' :: r)))) =
          '(' :: (blanks j ++ (w ++ (blanks k ++ ')' :: r))) :=
        skipBlank_blanks _ _ (by simp)
      have h2 : identTok (blanks i ++ '(' :: (blanks j ++ (w ++ (blanks k ++ ')' :: r)))) = none := by
        unfold identTok; rw [h1]; rfl
      have h3 : identTok (blanks j ++ (w ++ (blanks k ++ ')' :: r))) = some (w, blanks k ++ ')' :: r) := by
        apply identTok_ident hw
        cases k with
        | zero => intro c hc; simp [blanks] at hc; subst hc; rfl
        | succ k => intro c hc; simp [blanks, List.replicate_succ] at hc; subst hc; rfl
      have h4 : skipBlank (blanks k ++ ')' :: r) = ')' :: r := skipBlank_blanks _ _ (by simp)
      simp only [h2, h1, h3, h4]

/-- Effect of the `defined` step on a token. -/
def stepD (d : Str → Bool) : CTok → CTok
  | .defd w _ => .num (if d w then 1 else 0)
  | t => t

/-- An operator token: neither word nor `defined`. -/
def isOpTok : CTok → Bool
  | .num _ | .id _ | .defd _ _ => false
  | _ => true

theorem op_text {t : CTok} (h : isOpTok t = true) :
    t.text ≠ [] ∧ ∀ c ∈ t.text, isKwChar c = false ∧ isWordC c = false ∧ c ≠ '"' := by
  cases t with
  | num n => simp [isOpTok] at h
  | id w => simp [isOpTok] at h
  | defd w f => simp [isOpTok] at h
  | cmp op => cases op <;> exact ⟨by simp [CTok.text], by decide⟩
  | arith op => cases op <;> exact ⟨by simp [CTok.text], by decide⟩
  | bang => exact ⟨by simp [CTok.text], by decide⟩
  | and => exact ⟨by simp [CTok.text], by decide⟩
  | or => exact ⟨by simp [CTok.text], by decide⟩
  | lp => exact ⟨by simp [CTok.text], by decide⟩
  | rp => exact ⟨by simp [CTok.text], by decide⟩

theorem isStart_false_op {t : CTok} (h : t.isStart = false) : isOpTok t = true := by
  cases t <;> simp [CTok.isStart] at h <;> rfl

theorem layout_cons (p : Nat × CTok) (l : List (Nat × CTok)) :
    layout (p :: l) = blanks p.1 ++ p.2.text ++ layout l := by
  simp [layout]

/-- After an operand comes no word character. -/
theorem head_after (l : List (Nat × CTok)) (k : Nat) (h : Fol true (l.map (·.2))) :
    ∀ c ∈ (layout l ++ blanks k).head?, isKwChar c = false ∧ isWordC c = false := by
  have hb : ∀ (m : Nat) (s : Str), (∀ c ∈ s.head?, isKwChar c = false ∧ isWordC c = false) →
      ∀ c ∈ (blanks m ++ s).head?, isKwChar c = false ∧ isWordC c = false := by
    intro m s hs c hc
    cases m with
    | zero => exact hs c (by simpa [blanks] using hc)
    | succ m => simp [blanks, List.replicate_succ] at hc; subst hc; exact ⟨by decide, by decide⟩
  cases l with
  | nil => have := hb k [] (by simp); simpa [layout] using this
  | cons p l =>
    rw [layout_cons, List.append_assoc, List.append_assoc]
    apply hb
    have := op_text (isStart_false_op h.1)
    obtain ⟨hne, hc⟩ := this
    cases ht : p.2.text with
    | nil => exact (hne ht).elim
    | cons d t =>
      intro c hc'
      simp at hc'; subst hc'
      have := hc d (by rw [ht]; simp)
      exact ⟨this.1, this.2.1⟩

theorem defined_layout (d : Str → Bool) (l : List (Nat × CTok)) (k : Nat) (b : Bool)
    (hf : Fol b (l.map (·.2))) (hok : ∀ p ∈ l, TokOk p.2) (prev : Bool) (hp : b = false → prev = false)
    (n : Nat) (hn : (layout l ++ blanks k).length < n) :
    definedLoop d n prev (layout l ++ blanks k) = layout (l.map fun p => (p.1, stepD d p.2)) ++ blanks k := by
  induction l generalizing b prev n with
  | nil =>
    have hlast : ∀ (k n : Nat) (prev : Bool), k < n → definedLoop d n prev (blanks k) = blanks k := by
      intro k
      induction k with
      | zero =>
        intro n prev hn
        cases n with
        | zero => omega
        | succ n => rfl
      | succ k ih =>
        intro n prev hn
        cases n with
        | zero => omega
        | succ n =>
          have e : blanks (k + 1) = ' ' :: blanks k := by simp [blanks, List.replicate_succ]
          rw [e, definedLoop_nonkw _ _ _ _ _ (by decide), ih n false (by omega)]
    simpa [layout] using hlast k n prev (by simpa [layout, blanks] using hn)
  | cons p l ih =>
    obtain ⟨m, t⟩ := p
    obtain ⟨h1, h2⟩ := hf
    rw [layout_cons, List.append_assoc, List.append_assoc] at hn ⊢
    simp only [List.map_cons]
    rw [layout_cons, List.append_assoc, List.append_assoc]
    have hstep : ∀ (n : Nat) (prev : Bool), (t.text ++ (layout l ++ blanks k)).length < n →
        (t.isStart = true → prev = false) →
        definedLoop d n prev (t.text ++ (layout l ++ blanks k)) =
          (stepD d t).text ++ (layout (l.map fun p => (p.1, stepD d p.2)) ++ blanks k) := by
      intro n prev hn hprev
      by_cases hop : isOpTok t = true
      · obtain ⟨hne, hc⟩ := op_text hop
        obtain ⟨n', rfl⟩ : ∃ n', n = n' + t.text.length := ⟨n - t.text.length, by simp at hn; omega⟩
        rw [definedLoop_text _ _ (fun c h => (hc c h).1) hne,
          ih _ h2 (fun q hq => hok q (by simp [hq])) false (fun _ => rfl) n' (by simp at hn ⊢; omega)]
        have : stepD d t = t := by cases t <;> first | rfl | simp [isOpTok] at hop
        rw [this]
      · have hend : t.isEnd = true := by cases t <;> simp [isOpTok] at hop <;> rfl
        have hst : t.isStart = true := by cases t <;> simp [isOpTok] at hop <;> rfl
        have hpr := hprev hst
        subst hpr
        rw [hend] at h2
        have hhead := head_after l k h2
        have word : ∀ w : Str, t.text = w → (stepD d t).text = w → w ≠ [] → (∀ c ∈ w, isWordC c = true) →
            w ≠ c%"defined" → definedLoop d n false (t.text ++ (layout l ++ blanks k)) =
          (stepD d t).text ++ (layout (l.map fun p => (p.1, stepD d p.2)) ++ blanks k) := by
          intro w e1 e2 hne hw hd
          rw [e1] at hn ⊢
          rw [e2]
          obtain ⟨n', rfl⟩ : ∃ n', n = n' + w.length := ⟨n - w.length, by simp at hn; omega⟩
          rw [definedLoop_word _ _ hne hw hd _ _ (fun c hc => (hhead c hc).1),
            ih true h2 (fun q hq => hok q (by simp [hq])) true (by simp) n' (by simp at hn ⊢; omega)]
        cases t with
        | num x =>
          exact word (natDigits x) rfl rfl (natDigits_nonempty x)
            (fun c hc => isWordC_of_digit (natDigits_digit hc))
            (natDigits_ne x _ ⟨'d', by simp, rfl⟩)
        | id w =>
          have := hok _ (List.mem_cons_self ..)
          exact word w rfl rfl (ident_word this.1).1 (ident_word this.1).2 this.2
        | defd w f =>
          have hid : IsIdent w := hok _ (List.mem_cons_self ..)
          obtain ⟨a, e1, ⟨c0, a', ha, hk⟩, e3⟩ := definedArg_form w f hid (layout l ++ blanks k)
            (fun c hc => (hhead c hc).2)
          rw [e1] at hn ⊢
          cases n with
          | zero => omega
          | succ n =>
            have hdrop : (c%"defined" ++ a ++ (layout l ++ blanks k)).drop 7 = a ++ (layout l ++ blanks k) := rfl
            have hsw : startsWith (c%"defined" ++ a ++ (layout l ++ blanks k)) c%"defined" = true :=
              (startsWith_iff _ _).2 ⟨a ++ (layout l ++ blanks k), by simp⟩
            have hexp : definedLoop d (n + 1) false (c%"defined" ++ a ++ (layout l ++ blanks k)) =
                (if d w then '1' else '0') :: definedLoop d n false (layout l ++ blanks k) := by
              have hcons : c%"defined" ++ a ++ (layout l ++ blanks k) =
                  'd' :: (c%"efined" ++ a ++ (layout l ++ blanks k)) := rfl
              rw [hcons] at hsw hdrop ⊢
              simp only [definedLoop, hsw, Bool.not_false, Bool.true_and, if_true, hdrop]
              subst ha
              simp only [List.cons_append, hk] at e3 ⊢
              simp only [e3]
              rfl
            rw [hexp, ih true h2 (fun q hq => hok q (by simp [hq])) false (by simp) n
              (by simp at hn ⊢; omega)]
            simp only [stepD]
            cases d w <;> rfl
        | bang => simp [isOpTok] at hop
        | and => simp [isOpTok] at hop
        | or => simp [isOpTok] at hop
        | cmp op => simp [isOpTok] at hop
        | arith op => simp [isOpTok] at hop
        | lp => simp [isOpTok] at hop
        | rp => simp [isOpTok] at hop
    cases m with
    | zero =>
      have := hstep n prev (by simpa [blanks] using hn) (fun hs => by rw [hs] at h1; cases b <;> simp at h1; exact hp rfl)
      simpa [blanks] using this
    | succ m =>
      obtain ⟨n', rfl⟩ : ∃ n', n = n' + (blanks (m + 1)).length := ⟨n - (blanks (m + 1)).length, by simp at hn; omega⟩
      rw [definedLoop_text d (blanks (m + 1)) (by
        intro c hc
        have := List.eq_of_mem_replicate hc
        subst this; decide) (by simp [blanks, List.replicate_succ])]
      rw [hstep n' false (by simp at hn ⊢; omega) (fun _ => rfl)]

/-! ### Step 2: macro expansion -/

/-- Effect of macro expansion on a token: `mv` gives the numeric value of macros. -/
def stepM (mv : Str → Option Nat) : CTok → CTok
  | .id w => match mv w with
    | some v => .num v
    | none => .id w
  | t => t

/-- Pieces of a token. -/
def tokPieces : CTok → List Piece
  | .num n => [.word (natDigits n)]
  | .id w => [.word w]
  | t => t.text.map .chr

/-- Pieces of a layout. -/
def layPieces (l : List (Nat × CTok)) : List Piece :=
  l.flatMap fun p => (blanks p.1).map .chr ++ tokPieces p.2

theorem text_chrs (s : Str) : Spec.text (s.map .chr) = s := by
  induction s with
  | nil => rfl
  | cons c s ih => simp only [List.map_cons, text_cons, ih]; rfl

theorem text_tokPieces (t : CTok) : Spec.text (tokPieces t) = t.text := by
  cases t with
  | num n => simp [tokPieces, Spec.text, Piece.text, CTok.text]
  | id w => simp [tokPieces, Spec.text, Piece.text, CTok.text]
  | _ => exact text_chrs _

theorem text_layPieces (l : List (Nat × CTok)) (k : Nat) :
    Spec.text (layPieces l ++ (blanks k).map .chr) = layout l ++ blanks k := by
  rw [text_append, text_chrs]
  congr 1
  induction l with
  | nil => rfl
  | cons p l ih =>
    have : layPieces (p :: l) = ((blanks p.1).map .chr ++ tokPieces p.2) ++ layPieces l := by
      simp [layPieces]
    rw [this, text_append, text_append, text_chrs, text_tokPieces, ih, layout_cons]

theorem lineOk_chrs (s : Str) (ps : List Piece) (h : ∀ c ∈ s, isWordC c = false ∧ c ≠ '"') (hp : LineOk ps) :
    LineOk (s.map .chr ++ ps) := by
  induction s with
  | nil => exact hp
  | cons c s ih =>
    have hc := h c (by simp)
    exact .chr c _ hc.1 (fun e => (hc.2 e).elim) (ih (fun d hd => h d (by simp [hd])))

theorem blank_chr (m : Nat) : ∀ c ∈ blanks m, isWordC c = false ∧ c ≠ '"' := by
  intro c hc
  have := List.eq_of_mem_replicate hc
  subst this; decide

/-- No `defined` is left. -/
def NoDefd (l : List (Nat × CTok)) : Prop := ∀ p ∈ l, ∀ w f, p.2 ≠ .defd w f

theorem lineOk_layPieces (l : List (Nat × CTok)) (k : Nat) (b : Bool) (hf : Fol b (l.map (·.2)))
    (hok : ∀ p ∈ l, TokOk p.2) (nd : NoDefd l) :
    LineOk (layPieces l ++ (blanks k).map .chr) ∧
      (b = true → ∀ w qs, layPieces l ++ (blanks k).map .chr ≠ .word w :: qs) := by
  induction l generalizing b with
  | nil =>
    refine ⟨by simpa [layPieces] using lineOk_chrs (blanks k) [] (blank_chr k) .nil, ?_⟩
    rintro _ w qs h
    cases k <;> simp [layPieces, blanks, List.replicate_succ] at h
  | cons p l ih =>
    obtain ⟨m, t⟩ := p
    obtain ⟨h1, h2⟩ := hf
    obtain ⟨i1, i2⟩ := ih _ h2 (fun q hq => hok q (by simp [hq])) (fun q hq => nd q (by simp [hq]))
    have e : layPieces ((m, t) :: l) ++ (blanks k).map .chr =
        (blanks m).map .chr ++ (tokPieces t ++ (layPieces l ++ (blanks k).map .chr)) := by
      simp [layPieces]
    rw [e]
    have hword : ∀ w, t.isEnd = true → w ≠ [] → (∀ c ∈ w, isWordC c = true) →
        LineOk (.word w :: (layPieces l ++ (blanks k).map .chr)) :=
      fun w he hne hw => .word w _ hne hw (i2 he) i1
    have hop : isOpTok t = true → LineOk (t.text.map .chr ++ (layPieces l ++ (blanks k).map .chr)) :=
      fun h => lineOk_chrs _ _ (fun c hc => (op_text h).2 c hc |>.2) i1
    refine ⟨lineOk_chrs _ _ (blank_chr m) ?_, ?_⟩
    · cases t with
      | num n => exact hword _ rfl (natDigits_nonempty n) (fun c hc => isWordC_of_digit (natDigits_digit hc))
      | id w =>
        have := hok _ (List.mem_cons_self ..)
        exact hword _ rfl (ident_word this.1).1 (ident_word this.1).2
      | defd w f => exact (nd _ (List.mem_cons_self ..) w f rfl).elim
      | bang => exact hop rfl
      | and => exact hop rfl
      | or => exact hop rfl
      | cmp op => exact hop rfl
      | arith op => exact hop rfl
      | lp => exact hop rfl
      | rp => exact hop rfl
    · rintro rfl w qs h
      cases m with
      | succ m => simp [blanks, List.replicate_succ] at h
      | zero =>
        have ho := isStart_false_op h1
        have hp : tokPieces t = t.text.map .chr := by cases t <;> first | rfl | simp [isOpTok] at ho
        rw [hp] at h
        have := (op_text ho).1
        cases ht : t.text with
        | nil => exact this ht
        | cons c s => rw [ht] at h; simp [blanks] at h

theorem expand_layout (orc : Str → List Str → Option Str) (env : MEnv) (mv : Str → Option Nat)
    (l : List (Nat × CTok)) (k : Nat) (hf : Fol false (l.map (·.2))) (hok : ∀ p ∈ l, TokOk p.2)
    (nd : NoDefd l)
    (hnum : ∀ n, dget env.macros (natDigits n) = none ∧ dget env.fnmacros (natDigits n) = none)
    (hid : ∀ p ∈ l, ∀ w, p.2 = .id w → dget env.macros w = (mv w).map natDigits ∧
      (mv w = none → dget env.fnmacros w = none)) :
    expandMacros orc env (layout l ++ blanks k) = layout (l.map fun p => (p.1, stepM mv p.2)) ++ blanks k := by
  have hword : ∀ w, Piece.word w ∈ layPieces l ++ (blanks k).map .chr →
      (∃ n, w = natDigits n) ∨ ∃ p ∈ l, p.2 = .id w := by
    intro w hw
    rcases List.mem_append.1 hw with hw | hw
    · obtain ⟨p, hp, hw⟩ := List.mem_flatMap.1 hw
      rcases List.mem_append.1 hw with hw | hw
      · obtain ⟨c, _, hc⟩ := List.mem_map.1 hw; cases hc
      · obtain ⟨m, t⟩ := p
        have hch : ∀ s : Str, Piece.word w ∉ s.map .chr := by
          intro s h; obtain ⟨c, _, hc⟩ := List.mem_map.1 h; cases hc
        cases t with
        | num n => left; simp [tokPieces] at hw; exact ⟨n, hw⟩
        | id w' => right; simp [tokPieces] at hw; exact ⟨_, hp, by rw [hw]⟩
        | _ => exact (hch _ hw).elim
    · obtain ⟨c, _, hc⟩ := List.mem_map.1 hw; cases hc
  have hns : NoStr (layPieces l ++ (blanks k).map .chr) := by
    intro s hs
    rcases List.mem_append.1 hs with hs | hs
    · obtain ⟨p, hp, hs⟩ := List.mem_flatMap.1 hs
      rcases List.mem_append.1 hs with hs | hs
      · obtain ⟨c, _, hc⟩ := List.mem_map.1 hs; cases hc
      · obtain ⟨m, t⟩ := p
        have hch : ∀ s' : Str, Piece.str s ∉ s'.map .chr := by
          intro s' h; obtain ⟨c, _, hc⟩ := List.mem_map.1 h; cases hc
        cases t with
        | num n => simp [tokPieces] at hs
        | id w' => simp [tokPieces] at hs
        | _ => exact (hch _ hs).elim
    · obtain ⟨c, _, hc⟩ := List.mem_map.1 hs; cases hc
  have := C25_no_string orc env _ (lineOk_layPieces l k false hf hok nd).1 hns (by
    intro w hw hm
    rcases hword w hw with ⟨n, rfl⟩ | ⟨p, hp, he⟩
    · exact (hnum n).2
    · have h := hid p hp w he
      rw [h.1] at hm
      exact h.2 (by cases hh : mv w with
        | none => rfl
        | some v => rw [hh] at hm; simp at hm))
  rw [text_layPieces] at this
  rw [this]
  have hchr : ∀ s : Str, replaceWords (objValue env) (s.map .chr) = s := by
    intro s
    induction s with
    | nil => rfl
    | cons c s ih =>
      show c :: replaceWords (objValue env) (s.map .chr) = _
      rw [ih]
  have happ : ∀ a b, replaceWords (objValue env) (a ++ b) =
      replaceWords (objValue env) a ++ replaceWords (objValue env) b := by
    intro a b; simp [replaceWords]
  rw [happ, hchr]
  congr 1
  clear this hword hns hf hok
  induction l with
  | nil => rfl
  | cons p l ih =>
    obtain ⟨m, t⟩ := p
    have e : layPieces ((m, t) :: l) = ((blanks m).map .chr ++ tokPieces t) ++ layPieces l := by
      simp [layPieces]
    rw [e, happ, happ, hchr, ih (fun q hq => nd q (by simp [hq])) (fun q hq => hid q (by simp [hq])),
      List.map_cons, layout_cons]
    congr 2
    cases t with
    | num n => simp [tokPieces, replaceWords, objValue, (hnum n).1, stepM, CTok.text]
    | id w =>
      have h := (hid _ (List.mem_cons_self ..) w rfl).1
      cases hh : mv w with
      | none => rw [hh] at h; simp at h; simp [tokPieces, replaceWords, objValue, h, stepM, hh, CTok.text]
      | some v => rw [hh] at h; simp at h; simp [tokPieces, replaceWords, objValue, h, stepM, hh, CTok.text]
    | defd w f => exact (nd _ (List.mem_cons_self ..) w f rfl).elim
    | _ => exact hchr _

/-! ### Step 3: translation to Python -/

/-- Python text of a token. -/
def outText : CTok → Str
  | .id _ => ['0']
  | .bang => c%" not "
  | .and => c%" and "
  | .or => c%" or "
  | t => t.text

/-- Python text of a layout. -/
def outLayout (l : List (Nat × CTok)) : Str := l.flatMap fun p => blanks p.1 ++ outText p.2

theorem outLayout_cons (p : Nat × CTok) (l : List (Nat × CTok)) :
    outLayout (p :: l) = blanks p.1 ++ outText p.2 ++ outLayout l := by
  simp [outLayout]

/-- Characters copied by the translation. -/
def plainC (c : Char) : Bool := c ≠ '!' && c ≠ '&' && c ≠ '|' && !isIdentStart c

theorem transform_plain (t : Str) (h : ∀ c ∈ t, plainC c = true) (n : Nat) (s : Str) :
    transformLoop (n + t.length) (t ++ s) = t ++ transformLoop n s := by
  induction t with
  | nil => rfl
  | cons c t ih =>
    have e : n + (c :: t).length = (n + t.length) + 1 := by simp; omega
    have hc := h c (by simp)
    simp only [plainC, Bool.and_eq_true, decide_eq_true_eq, Bool.not_eq_true'] at hc
    obtain ⟨⟨⟨h1, h2⟩, h3⟩, h4⟩ := hc
    rw [e, List.cons_append]
    simp only [transformLoop, h1, if_false, startsWith, decide_false, Bool.false_and, h2, h3, h4]
    simp only [Bool.false_eq_true, if_false]
    rw [ih (fun x hx => h x (by simp [hx]))]; rfl

theorem plain_blanks (m : Nat) : ∀ c ∈ blanks m, plainC c = true := by
  intro c hc
  have := List.eq_of_mem_replicate hc
  subst this; decide

theorem transform_layout (l : List (Nat × CTok)) (k : Nat) (b : Bool) (hf : Fol b (l.map (·.2)))
    (hok : ∀ p ∈ l, TokOk p.2) (nd : NoDefd l) (n : Nat) (hn : (layout l ++ blanks k).length < n) :
    transformLoop n (layout l ++ blanks k) = outLayout l ++ blanks k := by
  induction l generalizing b n with
  | nil =>
    obtain ⟨n', rfl⟩ : ∃ n', n = (n' + 1) + (blanks k).length := ⟨n - (blanks k).length - 1, by
      simp [layout] at hn; omega⟩
    have := transform_plain (blanks k) (plain_blanks k) (n' + 1) []
    simpa [layout, outLayout, transformLoop] using this
  | cons p l ih =>
    obtain ⟨m, t⟩ := p
    obtain ⟨h1, h2⟩ := hf
    rw [layout_cons, List.append_assoc, List.append_assoc] at hn ⊢
    rw [outLayout_cons, List.append_assoc, List.append_assoc]
    obtain ⟨n', rfl⟩ : ∃ n', n = n' + (blanks m).length := ⟨n - (blanks m).length, by simp at hn; omega⟩
    rw [transform_plain _ (plain_blanks m)]
    congr 1
    have hn' : t.text.length + (layout l ++ blanks k).length < n' := by simp at hn ⊢; omega
    have ihn : ∀ n, (layout l ++ blanks k).length < n →
        transformLoop n (layout l ++ blanks k) = outLayout l ++ blanks k :=
      fun n h => ih _ h2 (fun q hq => hok q (by simp [hq])) (fun q hq => nd q (by simp [hq])) n h
    have plain : outText t = t.text → (∀ c ∈ t.text, plainC c = true) →
        transformLoop n' (t.text ++ (layout l ++ blanks k)) = outText t ++ (outLayout l ++ blanks k) := by
      intro e h
      obtain ⟨n'', rfl⟩ : ∃ n'', n' = n'' + t.text.length := ⟨n' - t.text.length, by omega⟩
      rw [transform_plain _ h, e, ihn n'' (by omega)]
    have hpos : 0 < t.text.length := by
      cases t with
      | num x => exact List.length_pos_iff.2 (natDigits_nonempty x)
      | id w => exact List.length_pos_iff.2 (ident_word (hok _ (List.mem_cons_self ..)).1).1
      | defd w f => exact (nd _ (List.mem_cons_self ..) w f rfl).elim
      | cmp op => exact List.length_pos_iff.2 (op_text rfl).1
      | arith op => exact List.length_pos_iff.2 (op_text rfl).1
      | bang => decide
      | and => decide
      | or => decide
      | lp => decide
      | rp => decide
    cases n' with
    | zero => omega
    | succ n' =>
    cases t with
    | num x =>
      refine plain rfl (fun c hc => ?_)
      have := digit_facts (natDigits_digit hc)
      simp [plainC, this]
    | id w =>
      have hid := hok _ (List.mem_cons_self ..)
      obtain ⟨c, r, rfl, hc1, _, hr⟩ := ident_first hid.1
      have hhead := head_after l k h2
      have e := (takeWhile_split (p := isWordC) hr (fun c hc => (hhead c hc).2)).2
      have n1 : c ≠ '!' := by rintro rfl; revert hc1; decide
      have n2 : c ≠ '&' := by rintro rfl; revert hc1; decide
      have n3 : c ≠ '|' := by rintro rfl; revert hc1; decide
      show transformLoop (n' + 1) (c :: (r ++ (layout l ++ blanks k))) = '0' :: (outLayout l ++ blanks k)
      simp only [transformLoop, n1, if_false, startsWith, decide_false, Bool.false_and, n2, n3, hc1,
        if_true, e, Bool.false_eq_true]
      rw [ihn n' (by omega)]
    | defd w f => exact (nd _ (List.mem_cons_self ..) w f rfl).elim
    | bang =>
      show transformLoop (n' + 1) ('!' :: (layout l ++ blanks k)) = _
      simp only [transformLoop, if_true]
      rw [ihn n' (by omega)]; rfl
    | and =>
      show transformLoop (n' + 1) ('&' :: '&' :: (layout l ++ blanks k)) = _
      have : transformLoop (n' + 1) ('&' :: '&' :: (layout l ++ blanks k)) =
        c%" and " ++ transformLoop n' (layout l ++ blanks k) := by
        simp [transformLoop, startsWith]
      rw [this, ihn n' (by omega)]; rfl
    | or =>
      show transformLoop (n' + 1) ('|' :: '|' :: (layout l ++ blanks k)) = _
      have : transformLoop (n' + 1) ('|' :: '|' :: (layout l ++ blanks k)) =
        c%" or " ++ transformLoop n' (layout l ++ blanks k) := by
        simp [transformLoop, startsWith]
      rw [this, ihn n' (by omega)]; rfl
    | cmp op =>
      have hne := hok _ (List.mem_cons_self ..)
      cases op <;> first | exact plain rfl (by decide) | exact hne.elim
    | arith op => cases op <;> exact plain rfl (by decide)
    | lp => exact plain rfl (by decide)
    | rp => exact plain rfl (by decide)

/-! ### Step 4: tokenization -/

theorem takeWhile_blanks (p : Char → Bool) (hp : p ' ' = false) (s : Str) (b : Nat) :
    (s ++ blanks b).takeWhile p = s.takeWhile p ∧ (s ++ blanks b).dropWhile p = s.dropWhile p ++ blanks b := by
  induction s with
  | nil => cases b <;> simp [blanks, List.replicate_succ, hp]
  | cons c s ih =>
    cases h : p c with
    | true => simp [h, ih]
    | false => simp [h]

theorem head_blanks (s : Str) (b : Nat) (x : Char) (hx : x ≠ ' ') :
    (s ++ blanks b).head? = some x ↔ s.head? = some x := by
  cases s with
  | nil => cases b <;> simp [blanks, List.replicate_succ, Ne.symm hx]
  | cons c s => simp

theorem drop1_blanks (s : Str) (b : Nat) (x : Char) (h : s.head? = some x) :
    (s ++ blanks b).drop 1 = s.drop 1 ++ blanks b := by
  cases s with
  | nil => simp at h
  | cons c s => simp

/-- Trailing blanks and additional fuel change nothing. -/
theorem pyTok_blanks (b : Nat) : ∀ (n m : Nat) (s : Str), s.length < n → s.length + b < m →
    pyTok m (s ++ blanks b) = pyTok n s := by
  intro n
  induction n with
  | zero => intro m s h; omega
  | succ n ih =>
    intro m s hn hm
    cases m with
    | zero => omega
    | succ m =>
      cases s with
      | nil =>
        have : ∀ (b m : Nat), b < m → pyTok m (blanks b) = some [] := by
          intro b
          induction b with
          | zero =>
            intro m hm
            cases m with
            | zero => omega
            | succ m => rfl
          | succ b ih =>
            intro m hm
            cases m with
            | zero => omega
            | succ m =>
              have e : blanks (b + 1) = ' ' :: blanks b := by simp [blanks, List.replicate_succ]
              rw [e]; simp only [pyTok]; simp only [true_or, if_true]; exact ih m (by omega)
        simpa [pyTok] using this b (m + 1) (by simpa using hm)
      | cons c s =>
        simp only [List.length_cons] at hn hm
        have rec1 : pyTok m (s ++ blanks b) = pyTok n s := ih m s (by omega) (by omega)
        have rec2 : pyTok m ((s ++ blanks b).dropWhile isWordC) = pyTok n (s.dropWhile isWordC) := by
          rw [(takeWhile_blanks isWordC (by decide) s b).2]
          have := dropWhile_length isWordC s
          exact ih m _ (by omega) (by omega)
        have rec3 : ∀ x, s.head? = some x → pyTok m ((s ++ blanks b).drop 1) = pyTok n (s.drop 1) := by
          intro x hx
          rw [drop1_blanks s b x hx]
          exact ih m _ (by simp; omega) (by simp; omega)
        have hh : ∀ x, x ≠ ' ' → ((s ++ blanks b).head? = some x ↔ s.head? = some x) := fun x hx => head_blanks s b x hx
        rw [List.cons_append, pyTok.eq_3, pyTok.eq_3]
        by_cases h1 : c = ' ' ∨ c = '\t'
        · rw [if_pos h1, if_pos h1]; exact rec1
        · rw [if_neg h1, if_neg h1]
          by_cases h2 : c.isDigit = true
          · rw [if_pos h2, if_pos h2, (takeWhile_blanks Char.isDigit (by decide) s b).1, (takeWhile_blanks Char.isDigit (by decide) s b).2]
            have hl := dropWhile_length Char.isDigit s
            have rec4 : pyTok m (s.dropWhile Char.isDigit ++ blanks b) = pyTok n (s.dropWhile Char.isDigit) :=
              ih m _ (by omega) (by omega)
            cases hd : s.dropWhile Char.isDigit with
            | nil =>
              rw [hd] at rec4
              cases b with
              | zero => simp [blanks] at rec4 ⊢; rw [rec4]
              | succ b =>
                have e : blanks (b + 1) = ' ' :: blanks b := by simp [blanks, List.replicate_succ]
                rw [e] at rec4 ⊢
                simp only [List.nil_append] at rec4 ⊢
                split
                · rename_i h; simp at h
                · rw [rec4]
            | cons x r =>
              rw [hd] at rec4
              by_cases hx : x = '.'
              · subst hx; rfl
              · simp only [List.cons_append] at rec4 ⊢
                split
                · rename_i h; simp at h; exact (hx h.1).elim
                · rw [rec4]
                  split
                  · rename_i h; simp at h; exact (hx h.1).elim
                  · rfl
          · rw [if_neg h2, if_neg h2]
            have eqi : ∀ (x : Char), x ≠ ' ' → ∀ {α : Type} (a a' b' : α), (s.head? = some x → a = a') →
                (if (s ++ blanks b).head? = some x then a else b') = if s.head? = some x then a' else b' := by
              intro x hx α a a' b' h
              by_cases hs : s.head? = some x
              · rw [if_pos hs, if_pos ((hh x hx).2 hs), h hs]
              · rw [if_neg hs, if_neg (fun h => hs ((hh x hx).1 h))]
            by_cases h3 : c.isAlpha = true
            · rw [if_pos h3, if_pos h3]; simp only [(takeWhile_blanks isWordC (by decide) s b).1, rec2]
            rw [if_neg h3, if_neg h3]
            by_cases h4 : c = '('
            · rw [if_pos h4, if_pos h4]; rw [rec1]
            rw [if_neg h4, if_neg h4]
            by_cases h5 : c = ')'
            · rw [if_pos h5, if_pos h5]; rw [rec1]
            rw [if_neg h5, if_neg h5]
            by_cases h6 : c = '+'
            · rw [if_pos h6, if_pos h6]; rw [rec1]
            rw [if_neg h6, if_neg h6]
            by_cases h7 : c = '-'
            · rw [if_pos h7, if_pos h7]; rw [rec1]
            rw [if_neg h7, if_neg h7]
            by_cases h8 : c = '*'
            · rw [if_pos h8, if_pos h8]; rw [rec1]; exact eqi '*' (by decide) _ _ _ (fun _ => rfl)
            rw [if_neg h8, if_neg h8]
            by_cases h9 : c = '='
            · rw [if_pos h9, if_pos h9]; rw [rec1]; exact eqi '=' (by decide) _ _ _ (fun h => by rw [rec3 _ h])
            rw [if_neg h9, if_neg h9]
            by_cases h10 : c = '<'
            · rw [if_pos h10, if_pos h10]; rw [rec1, eqi '=' (by decide) _ _ _ (fun h => by rw [rec3 _ h])]; simp only [hh '<' (by decide), hh '>' (by decide)]
            rw [if_neg h10, if_neg h10]
            by_cases h11 : c = '>'
            · rw [if_pos h11, if_pos h11]; rw [rec1, eqi '=' (by decide) _ _ _ (fun h => by rw [rec3 _ h])]; simp only [hh '>' (by decide)]
            rw [if_neg h11, if_neg h11]

theorem pyTok_fuel (n m : Nat) (s : Str) (hn : s.length < n) (hm : s.length < m) : pyTok m s = pyTok n s := by
  have := pyTok_blanks 0 n m s hn (by simpa using hm)
  simpa [blanks] using this

theorem pyTok_lead (a n : Nat) (s : Str) : pyTok (n + a) (blanks a ++ s) = pyTok n s := by
  induction a with
  | zero => rfl
  | succ a ih =>
    have e : blanks (a + 1) ++ s = ' ' :: (blanks a ++ s) := by simp [blanks, List.replicate_succ]
    rw [e, ← Nat.add_assoc]; simp only [pyTok]; simp only [true_or, if_true]; exact ih

/-- Stripping does not change the tokens of a text whose only white space is blanks. -/
theorem pyTok_strip (s : Str) (h : ∀ c ∈ s, isSpaceC c = true → c = ' ') (n m : Nat)
    (hn : (strip s).length < n) (hm : s.length < m) : pyTok n (strip s) = pyTok m s := by
  have hl : ∀ s : Str, (∀ c ∈ s, isSpaceC c = true → c = ' ') → ∃ a, s = blanks a ++ lstrip s := by
    intro s hs
    refine ⟨(s.takeWhile isSpaceC).length, ?_⟩
    have e := takeWhile_append_dropWhile' isSpaceC s
    have : s.takeWhile isSpaceC = blanks (s.takeWhile isSpaceC).length := by
      apply List.eq_replicate_of_mem
      intro c hc
      exact hs c (by rw [← e]; exact List.mem_append_left _ hc) (takeWhile_true hc)
    conv => lhs; rw [← e, this]
    rfl
  obtain ⟨a, ha⟩ := hl s h
  have hr : ∃ b, lstrip s = strip s ++ blanks b := by
    have hs' : ∀ c ∈ (lstrip s).reverse, isSpaceC c = true → c = ' ' := by
      intro c hc
      exact h c (by rw [ha]; simp at hc ⊢; exact .inr hc)
    obtain ⟨b, hb⟩ := hl _ hs'
    refine ⟨b, ?_⟩
    have := congrArg List.reverse hb
    simp [blanks] at this
    simpa [strip, rstrip, lstrip, blanks] using this
  obtain ⟨b, hb⟩ := hr
  have h1 : s = blanks a ++ (strip s ++ blanks b) := by rw [← hb]; exact ha
  have hlen : s.length = a + ((strip s).length + b) := by
    conv => lhs; rw [h1]
    simp [blanks]
  obtain ⟨m', rfl⟩ : ∃ m', m = m' + a := ⟨m - a, by omega⟩
  conv => rhs; rw [h1]
  rw [pyTok_lead, pyTok_blanks b n m' (strip s) hn (by omega)]

theorem outHead_after (l : List (Nat × CTok)) (k : Nat) (h : Fol true (l.map (·.2))) :
    ∀ c ∈ (outLayout l ++ blanks k).head?, c.isDigit = false ∧ c ≠ '.' := by
  cases l with
  | nil => intro c hc; cases k <;> simp [outLayout, blanks, List.replicate_succ] at hc; subst hc; decide
  | cons p l =>
    obtain ⟨m, t⟩ := p
    rw [outLayout_cons, List.append_assoc, List.append_assoc]
    intro c hc
    cases m with
    | succ m => simp [blanks, List.replicate_succ] at hc; subst hc; decide
    | zero =>
      have hs := h.1
      cases t with
      | num n => simp [CTok.isStart] at hs
      | id w => simp [CTok.isStart] at hs
      | defd w f => simp [CTok.isStart] at hs
      | bang => simp [CTok.isStart] at hs
      | lp => simp [CTok.isStart] at hs
      | and => simp [outText, blanks] at hc; subst hc; decide
      | or => simp [outText, blanks] at hc; subst hc; decide
      | rp => simp [outText, CTok.text, blanks] at hc; subst hc; decide
      | cmp op => cases op <;> (simp [outText, CTok.text, blanks] at hc; subst hc; decide)
      | arith op => cases op <;> (simp [outText, CTok.text, blanks] at hc; subst hc; decide)

theorem outHead_before (l : List (Nat × CTok)) (k : Nat) (h : Fol false (l.map (·.2))) (nd : NoDefd l) :
    ∀ c ∈ (outLayout l ++ blanks k).head?, c ≠ '=' ∧ c ≠ '<' ∧ c ≠ '>' ∧ c ≠ '*' := by
  cases l with
  | nil => simp [Fol] at h
  | cons p l =>
    obtain ⟨m, t⟩ := p
    rw [outLayout_cons, List.append_assoc, List.append_assoc]
    intro c hc
    cases m with
    | succ m => simp [blanks, List.replicate_succ] at hc; subst hc; decide
    | zero =>
      have hs := h.1
      cases t with
      | num n =>
        have hne := natDigits_nonempty n
        have hdig : c.isDigit = true := by
          cases hd : natDigits n with
          | nil => exact (hne hd).elim
          | cons x r =>
            simp only [outText, CTok.text, hd, blanks, List.replicate_zero, List.nil_append,
              List.cons_append, List.head?_cons, Option.mem_some_iff] at hc
            subst hc
            exact natDigits_digit (n := n) (by rw [hd]; simp)
        refine ⟨?_, ?_, ?_, ?_⟩ <;> (rintro rfl; revert hdig; decide)
      | id w => simp [outText, blanks] at hc; subst hc; decide
      | defd w f => exact (nd _ (List.mem_cons_self ..) w f rfl).elim
      | bang => simp [outText, blanks] at hc; subst hc; decide
      | lp => simp [outText, CTok.text, blanks] at hc; subst hc; decide
      | and => simp [CTok.isStart] at hs
      | or => simp [CTok.isStart] at hs
      | rp => simp [CTok.isStart] at hs
      | cmp op => simp [CTok.isStart] at hs
      | arith op => simp [CTok.isStart] at hs

theorem pyTok_num (ds r : Str) (hne : ds ≠ []) (hd : ∀ c ∈ ds, c.isDigit = true)
    (hr : ∀ c ∈ r.head?, c.isDigit = false ∧ c ≠ '.') (n : Nat) :
    pyTok (n + 1) (ds ++ r) = (pyTok n r).map (numTok ds :: ·) := by
  cases ds with
  | nil => exact (hne rfl).elim
  | cons c ds =>
    have hc := hd c (by simp)
    have hf := digit_facts hc
    have e := takeWhile_split (p := Char.isDigit) (w := ds) (r := r) (fun x hx => hd x (by simp [hx]))
      (fun x hx => (hr x hx).1)
    rw [List.cons_append]
    simp only [pyTok]
    rw [if_neg (by simp [hf.1, hf.2.1]), if_pos hc, e.1, e.2]
    cases r with
    | nil => rfl
    | cons x r =>
      have := (hr x (by simp)).2
      split
      · rename_i h; simp at h; exact (this h.1).elim
      · rfl

theorem pyTok_layout (l : List (Nat × CTok)) (k : Nat) (b : Bool) (hf : Fol b (l.map (·.2)))
    (hok : ∀ p ∈ l, TokOk p.2) (nd : NoDefd l) (d : Str → Bool) (n : Nat)
    (hn : (outLayout l ++ blanks k).length < n) :
    pyTok n (outLayout l ++ blanks k) = some (l.map fun p => tokPy (fun _ => 0) d p.2) := by
  induction l generalizing b n with
  | nil =>
    have := pyTok_blanks k 1 n [] (by simp) (by simpa [outLayout, blanks] using hn)
    simpa [outLayout, pyTok] using this
  | cons p l ih =>
    obtain ⟨m, t⟩ := p
    obtain ⟨h1, h2⟩ := hf
    rw [outLayout_cons, List.append_assoc, List.append_assoc] at hn ⊢
    obtain ⟨n', rfl⟩ : ∃ n', n = n' + m := ⟨n - m, by simp [blanks] at hn; omega⟩
    rw [pyTok_lead]
    have hn' : (outText t).length + (outLayout l ++ blanks k).length < n' := by simp [blanks] at hn ⊢; omega
    have ihn : ∀ n, (outLayout l ++ blanks k).length < n →
        pyTok n (outLayout l ++ blanks k) = some (l.map fun p => tokPy (fun _ => 0) d p.2) :=
      fun n h => ih _ h2 (fun q hq => hok q (by simp [hq])) (fun q hq => nd q (by simp [hq])) n h
    have hrest : ∀ (t' : PTok) (n : Nat), (outLayout l ++ blanks k).length < n →
        tokPy (fun _ => 0) d t = t' →
        (pyTok n (outLayout l ++ blanks k)).map (t' :: ·) =
          some (((m, t) :: l).map fun p => tokPy (fun _ => 0) d p.2) := by
      intro t' n h e
      rw [ihn n h]; simp [e]
    have hspace : ∀ (n : Nat), (outLayout l ++ blanks k).length + 1 < n →
        pyTok n (' ' :: (outLayout l ++ blanks k)) = pyTok (n - 1) (outLayout l ++ blanks k) := by
      intro n h
      obtain ⟨n'', rfl⟩ : ∃ n'', n = n'' + 1 := ⟨n - 1, by omega⟩
      simp [pyTok]
    cases t with
    | num x =>
      have e := pyTok_num (natDigits x) (outLayout l ++ blanks k) (natDigits_nonempty x)
        (fun c hc => natDigits_digit hc) (outHead_after l k h2) (n' - 1)
      have hp := List.length_pos_iff.2 (natDigits_nonempty x)
      have hx : (outText (.num x)).length = (natDigits x).length := rfl
      have e2 : n' - 1 + 1 = n' := by omega
      rw [e2, numTok_natDigits] at e
      show pyTok n' (natDigits x ++ _) = _
      rw [e]; exact hrest _ _ (by omega) rfl
    | id w =>
      have e := pyTok_num ['0'] (outLayout l ++ blanks k) (by simp) (by decide) (outHead_after l k h2) (n' - 1)
      have hx : (outText (.id w)).length = 1 := rfl
      have e2 : n' - 1 + 1 = n' := by omega
      rw [e2] at e
      show pyTok n' (['0'] ++ _) = _
      rw [e]; exact hrest _ _ (by omega) rfl
    | defd w f => exact (nd _ (List.mem_cons_self ..) w f rfl).elim
    | bang =>
      obtain ⟨n2, rfl⟩ : ∃ n2, n' = n2 + 2 := ⟨n' - 2, by simp [outText] at hn'; omega⟩
      have e : pyTok (n2 + 2) (outText .bang ++ (outLayout l ++ blanks k)) =
          (pyTok n2 (' ' :: (outLayout l ++ blanks k))).map (.not :: ·) := rfl
      simp [outText] at hn'
      rw [e, hspace _ (by simp; omega)]
      exact hrest _ _ (by simp; omega) rfl
    | and =>
      obtain ⟨n2, rfl⟩ : ∃ n2, n' = n2 + 2 := ⟨n' - 2, by simp [outText] at hn'; omega⟩
      have e : pyTok (n2 + 2) (outText .and ++ (outLayout l ++ blanks k)) =
          (pyTok n2 (' ' :: (outLayout l ++ blanks k))).map (.and :: ·) := rfl
      simp [outText] at hn'
      rw [e, hspace _ (by simp; omega)]
      exact hrest _ _ (by simp; omega) rfl
    | or =>
      obtain ⟨n2, rfl⟩ : ∃ n2, n' = n2 + 2 := ⟨n' - 2, by simp [outText] at hn'; omega⟩
      have e : pyTok (n2 + 2) (outText .or ++ (outLayout l ++ blanks k)) =
          (pyTok n2 (' ' :: (outLayout l ++ blanks k))).map (.or :: ·) := rfl
      simp [outText] at hn'
      rw [e, hspace _ (by simp; omega)]
      exact hrest _ _ (by simp; omega) rfl
    | lp =>
      obtain ⟨n2, rfl⟩ : ∃ n2, n' = n2 + 1 := ⟨n' - 1, by omega⟩
      have e : pyTok (n2 + 1) (outText .lp ++ (outLayout l ++ blanks k)) =
          (pyTok n2 (outLayout l ++ blanks k)).map (.lp :: ·) := rfl
      simp [outText, CTok.text] at hn'
      rw [e]; exact hrest _ _ (by simp; omega) rfl
    | rp =>
      obtain ⟨n2, rfl⟩ : ∃ n2, n' = n2 + 1 := ⟨n' - 1, by omega⟩
      have e : pyTok (n2 + 1) (outText .rp ++ (outLayout l ++ blanks k)) =
          (pyTok n2 (outLayout l ++ blanks k)).map (.rp :: ·) := rfl
      simp [outText, CTok.text] at hn'
      rw [e]; exact hrest _ _ (by simp; omega) rfl
    | cmp op =>
      have hne := hok _ (List.mem_cons_self ..)
      have hb := outHead_before l k h2 (fun q hq => nd q (by simp [hq]))
      have hh : ∀ x, (x = '=' ∨ x = '<' ∨ x = '>') → (outLayout l ++ blanks k).head? ≠ some x := by
        intro x hx he
        have := hb x he
        rcases hx with rfl | rfl | rfl <;> simp at this
      obtain ⟨n2, rfl⟩ : ∃ n2, n' = n2 + 1 := ⟨n' - 1, by omega⟩
      cases op with
      | ne => exact hne.elim
      | eq =>
        have e : pyTok (n2 + 1) (outText (.cmp .eq) ++ (outLayout l ++ blanks k)) =
          (pyTok n2 (outLayout l ++ blanks k)).map (.cmp .eq :: ·) := rfl
        simp [outText, CTok.text] at hn'
        rw [e]; exact hrest _ _ (by simp; omega) rfl
      | le =>
        have e : pyTok (n2 + 1) (outText (.cmp .le) ++ (outLayout l ++ blanks k)) =
          (pyTok n2 (outLayout l ++ blanks k)).map (.cmp .le :: ·) := rfl
        simp [outText, CTok.text] at hn'
        rw [e]; exact hrest _ _ (by simp; omega) rfl
      | ge =>
        have e : pyTok (n2 + 1) (outText (.cmp .ge) ++ (outLayout l ++ blanks k)) =
          (pyTok n2 (outLayout l ++ blanks k)).map (.cmp .ge :: ·) := rfl
        simp [outText, CTok.text] at hn'
        rw [e]; exact hrest _ _ (by simp; omega) rfl
      | lt =>
        have e : pyTok (n2 + 1) ('<' :: (outLayout l ++ blanks k)) =
          if (outLayout l ++ blanks k).head? = some '=' then
            (pyTok n2 ((outLayout l ++ blanks k).drop 1)).map (.cmp .le :: ·)
          else if (outLayout l ++ blanks k).head? = some '<' ∨ (outLayout l ++ blanks k).head? = some '>' then none
          else (pyTok n2 (outLayout l ++ blanks k)).map (.cmp .lt :: ·) := rfl
        rw [if_neg (hh _ (by simp)), if_neg (by rintro (h | h) <;> exact hh _ (by simp) h)] at e
        simp [outText, CTok.text] at hn'
        show pyTok (n2 + 1) ('<' :: (outLayout l ++ blanks k)) = _
        rw [e]; exact hrest _ _ (by simp; omega) rfl
      | gt =>
        have e : pyTok (n2 + 1) ('>' :: (outLayout l ++ blanks k)) =
          if (outLayout l ++ blanks k).head? = some '=' then
            (pyTok n2 ((outLayout l ++ blanks k).drop 1)).map (.cmp .ge :: ·)
          else if (outLayout l ++ blanks k).head? = some '>' then none
          else (pyTok n2 (outLayout l ++ blanks k)).map (.cmp .gt :: ·) := rfl
        rw [if_neg (hh _ (by simp)), if_neg (hh _ (by simp))] at e
        simp [outText, CTok.text] at hn'
        show pyTok (n2 + 1) ('>' :: (outLayout l ++ blanks k)) = _
        rw [e]; exact hrest _ _ (by simp; omega) rfl
    | arith op =>
      have hb := outHead_before l k h2 (fun q hq => nd q (by simp [hq]))
      obtain ⟨n2, rfl⟩ : ∃ n2, n' = n2 + 1 := ⟨n' - 1, by omega⟩
      cases op with
      | add =>
        have e : pyTok (n2 + 1) (outText (.arith .add) ++ (outLayout l ++ blanks k)) =
          (pyTok n2 (outLayout l ++ blanks k)).map (.arith .add :: ·) := rfl
        simp [outText, CTok.text] at hn'
        rw [e]; exact hrest _ _ (by simp; omega) rfl
      | sub =>
        have e : pyTok (n2 + 1) (outText (.arith .sub) ++ (outLayout l ++ blanks k)) =
          (pyTok n2 (outLayout l ++ blanks k)).map (.arith .sub :: ·) := rfl
        simp [outText, CTok.text] at hn'
        rw [e]; exact hrest _ _ (by simp; omega) rfl
      | mul =>
        have e : pyTok (n2 + 1) ('*' :: (outLayout l ++ blanks k)) =
          if (outLayout l ++ blanks k).head? = some '*' then none
          else (pyTok n2 (outLayout l ++ blanks k)).map (.arith .mul :: ·) := rfl
        have hns : ¬ (outLayout l ++ blanks k).head? = some '*' := fun h => (hb _ h).2.2.2 rfl
        rw [if_neg hns] at e
        simp [outText, CTok.text] at hn'
        show pyTok (n2 + 1) ('*' :: (outLayout l ++ blanks k)) = _
        rw [e]; exact hrest _ _ (by simp; omega) rfl

theorem hasCall_fol (f : Str → Nat) (d : Str → Bool) (ts : List CTok) (b : Bool) (h : Fol b ts) :
    hasCall (ts.map (tokPy f d)) = false := by
  induction ts generalizing b with
  | nil => rfl
  | cons t ts ih =>
    have := ih _ h.2
    cases ts with
    | nil => cases t <;> rfl
    | cons u ts =>
      have h2 := h.2.1
      cases t <;> cases u <;>
        first
        | (simp [CTok.isEnd, CTok.isStart] at h2; done)
        | exact this

theorem outLayout_spaces (l : List (Nat × CTok)) (k : Nat) (hok : ∀ p ∈ l, TokOk p.2) (nd : NoDefd l) :
    ∀ c ∈ outLayout l ++ blanks k, isSpaceC c = true → c = ' ' := by
  intro c hc hs
  have hb : ∀ m, c ∈ blanks m → c = ' ' := fun m h => List.eq_of_mem_replicate h
  have hop : ∀ t : CTok, (∀ d ∈ outText t, isSpaceC d = true → d = ' ') → c ∈ outText t → c = ' ' :=
    fun t ht hc => ht c hc hs
  rcases List.mem_append.1 hc with hc | hc
  · obtain ⟨p, hp, hc⟩ := List.mem_flatMap.1 hc
    rcases List.mem_append.1 hc with hc | hc
    · exact hb _ hc
    · obtain ⟨m, t⟩ := p
      cases t with
      | num n =>
        have := space_not_word hs
        rw [isWordC_of_digit (natDigits_digit (n := n) hc)] at this; cases this
      | id w => simp [outText] at hc; subst hc; revert hs; decide
      | defd w f => exact (nd _ hp w f rfl).elim
      | bang => exact hop .bang (by decide) hc
      | and => exact hop .and (by decide) hc
      | or => exact hop .or (by decide) hc
      | lp => exact hop .lp (by decide) hc
      | rp => exact hop .rp (by decide) hc
      | cmp op => cases op <;> exact hop (.cmp _) (by decide) hc
      | arith op => cases op <;> exact hop (.arith _) (by decide) hc
  · exact hb _ hc

end Pyclib
