import Verif.Spec.Respace
import Verif.Proof.GrammarFuelDecl
/-
The grammar does not depend on white space.
-/
namespace Pyclib
open Spec

section
variable {pk pk' : Nat → Option Nat}

/-- Literals that begin at a character. -/
def Quotes (pk pk' : Nat → Option Nat) (c : Char) (t t' : Str) : Prop :=
  isQuoteC c = true → (matchQuoted c t = none ∧ matchQuoted c t' = none) ∨
    ∃ a r r', matchQuoted c t = some (a, r) ∧ matchQuoted c t' = some (a, r') ∧ Respaced pk pk' .free c r r'

/-- Two positions behind white space. -/
inductive Post (pk pk' : Nat → Option Nat) : Pos → Pos → Prop
  | done (p q : Char) : Post pk pk' ⟨p, []⟩ ⟨q, []⟩
  | char (p q : Char) (k : Ctx) (c : Char) (t t' : Str) (hc : isWhite c = false)
      (hp : (isIdC p = isIdC q ∧ isWordC p = isWordC q) ∨ isIdC c = false) (hs : isSpaceC c = true → k = .sign)
      (hk : pk (c :: t).length = pk' (c :: t').length) (hq : Quotes pk pk' c t t') (h : Respaced pk pk' k c t t') :
      Post pk pk' ⟨p, c :: t⟩ ⟨q, c :: t'⟩

/-- Two positions in texts that differ in white space. -/
def PR (pk pk' : Nat → Option Nat) (x y : Pos) : Prop := Post pk pk' x.skip y.skip

theorem PR.skip {x y : Pos} (h : PR pk pk' x y) : PR pk pk' x.skip y.skip := by
  unfold PR at h ⊢
  rwa [skip_skip, skip_skip]

theorem quote_cases {c : Char} (h : isQuoteC c = true) : c = '"' ∨ c = '\'' := by
  simpa only [isQuoteC, Bool.or_eq_true, decide_eq_true_eq] using h

theorem quote_white {c : Char} (h : isQuoteC c = true) : isWhite c = false := by
  rcases quote_cases h with rfl | rfl <;> rfl

theorem quote_ctx {c : Char} (h : isQuoteC c = true) (k : Ctx) (p : Char) (w : Str) : nextCtx k p w c = .free := by
  rcases quote_cases h with rfl | rfl <;> rfl

/-- One character at a time. -/
theorem Spec.Respaced.view {k : Ctx} {p : Char} {t t' : Str} (h : Respaced pk pk' k p t t') :
    (t.all isWhite = true ∧ t'.all isWhite = true) ∨ ∃ w w' c u u', t = w ++ c :: u ∧ t' = w' ++ c :: u' ∧ w.all isWhite = true ∧
      w'.all isWhite = true ∧ isWhite c = false ∧ Gap k p w w' c ∧ pk (c :: u).length = pk' (c :: u').length ∧ Quotes pk pk' c u u' ∧
      Respaced pk pk' (nextCtx k p w c) c u u' := by
  cases h with
  | tail _ _ _ _ hw hw' => exact .inl ⟨hw, hw'⟩
  | char _ _ w w' c u u' hw hw' hc hg hk hq h => exact .inr ⟨w, w', c, u, u', rfl, rfl, hw, hw', hc, hg, hk, fun hc => .inl (hq hc), h⟩
  | literal _ _ w w' c u u' a r r' hw hw' hc hg hk hq hq' h hr =>
    exact .inr ⟨w, w', c, u, u', rfl, rfl, hw, hw', quote_white hc, hg, hk, fun _ => .inr ⟨a, r, r', hq, hq', hr⟩, by rw [quote_ctx hc]; exact h⟩

/-- One character in front. -/
theorem Spec.Respaced.put {k : Ctx} {p : Char} {w w' : Str} {c : Char} {u u' : Str} (hw : w.all isWhite = true)
    (hw' : w'.all isWhite = true) (hc : isWhite c = false) (hg : Gap k p w w' c) (hk : pk (c :: u).length = pk' (c :: u').length)
    (hq : Quotes pk pk' c u u') (h : Respaced pk pk' (nextCtx k p w c) c u u') : Respaced pk pk' k p (w ++ c :: u) (w' ++ c :: u') := by
  by_cases hqc : isQuoteC c = true
  · rcases hq hqc with h1 | ⟨a, r, r', h1, h2, h3⟩
    · exact .char _ _ _ _ _ _ _ hw hw' hc hg hk (fun _ => h1) h
    · exact .literal _ _ _ _ _ _ _ _ _ _ hw hw' hqc hg hk h1 h2 (by rw [quote_ctx hqc] at h; exact h) h3
  · exact .char _ _ _ _ _ _ _ hw hw' hc hg hk (fun hh => absurd hh hqc) h

/-- Induction over the characters. -/
theorem Spec.Respaced.rec' {M : ∀ k p t t', Respaced pk pk' k p t t' → Prop}
    (tail : ∀ k p w w' (hw : w.all isWhite = true) (hw' : w'.all isWhite = true), M k p w w' (.tail k p w w' hw hw'))
    (char : ∀ k p w w' c u u' (hw : w.all isWhite = true) (hw' : w'.all isWhite = true) (hc : isWhite c = false) (hg : Gap k p w w' c)
      (hk : pk (c :: u).length = pk' (c :: u').length) (hq : Quotes pk pk' c u u') (h : Respaced pk pk' (nextCtx k p w c) c u u'),
      M (nextCtx k p w c) c u u' h → M k p (w ++ c :: u) (w' ++ c :: u') (.put hw hw' hc hg hk hq h))
    {k : Ctx} {p : Char} {t t' : Str} (h : Respaced pk pk' k p t t') : M k p t t' h := by
  induction h with
  | tail k p w w' hw hw' => exact tail k p w w' hw hw'
  | char k p w w' c u u' hw hw' hc hg hk hq h ih => exact char k p w w' c u u' hw hw' hc hg hk (fun hc => .inl (hq hc)) h ih
  | literal k p w w' c u u' a r r' hw hw' hc hg hk hq hq' h hr ih ih' =>
    have e := quote_ctx hc k p w
    exact char k p w w' c u u' hw hw' (quote_white hc) hg hk (fun _ => .inr ⟨a, r, r', hq, hq', hr⟩) (by rw [e]; exact h) (by
      have : ∀ k' (e : k' = Ctx.free) (h2 : Respaced pk pk' k' c u u'), M k' c u u' h2 := by
        rintro _ rfl h2; exact ih
      exact this _ e _)

theorem nextCtx_space {k : Ctx} {p : Char} {w : Str} {c : Char} (h : isSpaceC c = true) : nextCtx k p w c = .sign := by simp [nextCtx, h]

theorem nextCtx_free (k : Ctx) (p : Char) (w : Str) (c : Char) : nextCtx .free p w c = nextCtx k p w c ∨ nextCtx .free p w c = .free := by
  unfold nextCtx
  split
  · exact .inl rfl
  split
  · exact .inl rfl
  split
  · exact .inl rfl
  · right; simp

theorem gap_free {k : Ctx} {p : Char} {w w' : Str} {c : Char} (h : Gap k p w w' c) : Gap .free p w w' c := by
  rcases h with h | ⟨_, h | h⟩
  · exact .inl h
  · exact .inr ⟨rfl, .inl h⟩
  · refine .inr ⟨rfl, .inr ?_⟩
    simp only [mayTouch, Bool.and_eq_true] at h ⊢
    exact ⟨⟨h.1.1, rfl⟩, rfl⟩

/-- The context may be forgotten. -/
theorem Spec.Respaced.forget {k : Ctx} {p : Char} {t t' : Str} (h : Respaced pk pk' k p t t') : Respaced pk pk' .free p t t' := by
  induction h using Spec.Respaced.rec' with
  | tail k p w w' hw hw' => exact .tail _ _ _ _ hw hw'
  | char k p w w' c u u' hw hw' hc hg hk hq h ih =>
    refine .put hw hw' hc (gap_free hg) hk hq ?_
    rcases nextCtx_free k p w c with e | e
    · rw [e]; exact h
    · rw [e]; exact ih

theorem skipWs_wh : ∀ (w : Str) (p : Char), w.all isWhite = true → skipWs p w = ⟨w.getLastD p, []⟩
  | [], p, _ => rfl
  | a :: w, p, h => by
    simp only [List.all_cons, Bool.and_eq_true] at h
    rw [skipWs, if_pos h.1, skipWs_wh w a h.2]
    cases w <;> simp [List.getLastD]

theorem skipWs_app : ∀ (w : Str) (p c : Char) (u : Str), w.all isWhite = true → isWhite c = false → skipWs p (w ++ c :: u) = ⟨w.getLastD p, c :: u⟩
  | [], p, c, u, _, hc => by simp [skipWs, hc]
  | a :: w, p, c, u, h, hc => by
    simp only [List.all_cons, Bool.and_eq_true] at h
    rw [List.cons_append, skipWs, if_pos h.1, skipWs_app w a c u h.2 hc]
    cases w <;> simp [List.getLastD]

theorem white_word {c : Char} (h : isWhite c = true) : isIdC c = false ∧ isWordC c = false ∧ inWord c = false := by
  simp only [isWhite, Bool.or_eq_true, decide_eq_true_eq] at h
  rcases h with ((rfl | rfl) | rfl) | rfl <;> decide

theorem last_white : ∀ (w : Str) (p : Char), w.all isWhite = true → w ≠ [] → isWhite (w.getLastD p) = true := by
  intro w p h hn
  have : w.getLastD p ∈ w := by
    cases w with
    | nil => exact absurd rfl hn
    | cons a w => rw [List.getLastD_cons]; exact List.getLastD_mem_cons ..
  exact List.all_eq_true.1 h _ this

theorem id_inWord {c : Char} (h : isIdC c = true) : inWord c = true := by
  simp only [isIdC, inWord, Bool.or_eq_true] at h ⊢
  exact .inl h

theorem word_id {c : Char} (h : isWordC c = true) : isIdC c = true := by simp [isIdC, h]

/-- Related texts after the same character are related positions. -/
theorem Spec.Respaced.pos {k : Ctx} {p : Char} {t t' : Str} (h : Respaced pk pk' k p t t') : PR pk pk' ⟨p, t⟩ ⟨p, t'⟩ := by
  unfold PR
  rcases h.view with ⟨h1, h2⟩ | ⟨w, w', c, u, u', rfl, rfl, hw, hw', hc, hg, hk, hq, h⟩
  · simp only [Pos.skip, skipWs_wh _ _ h1, skipWs_wh _ _ h2]
    exact .done _ _
  · simp only [Pos.skip, skipWs_app _ _ _ _ hw hc, skipWs_app _ _ _ _ hw' hc]
    refine .char _ _ _ _ _ _ hc ?_ nextCtx_space hk hq h
    have key : ∀ v : Str, v.all isWhite = true → v ≠ [] → isIdC (v.getLastD p) = false ∧ isWordC (v.getLastD p) = false := fun v hv hn =>
      ⟨(white_word (last_white v p hv hn)).1, (white_word (last_white v p hv hn)).2.1⟩
    rcases hg with rfl | ⟨_, ⟨h1, h2⟩ | hm⟩
    · exact .inl ⟨rfl, rfl⟩
    · have a := key _ hw h1
      have b := key _ hw' h2
      exact .inl ⟨a.1.trans b.1.symm, a.2.trans b.2.symm⟩
    · cases hi : isIdC c with
      | false => exact .inr rfl
      | true =>
        have hp : isIdC p = false := by
          cases hp : isIdC p with
          | false => rfl
          | true => simp [mayTouch, id_inWord hp, id_inWord hi] at hm
        have hp' : isWordC p = false := by
          cases hw : isWordC p with
          | false => rfl
          | true => rw [word_id hw] at hp; cases hp
        have all : ∀ v : Str, v.all isWhite = true → isIdC (v.getLastD p) = false ∧ isWordC (v.getLastD p) = false := by
          intro v hv
          cases v with
          | nil => exact ⟨hp, hp'⟩
          | cons a v => exact key _ hv (by simp)
        have a := all _ hw
        have b := all _ hw'
        exact .inl ⟨a.1.trans b.1.symm, a.2.trans b.2.symm⟩

/-- The texts at related positions are related, whatever is in front of them. -/
theorem skipWs_split : ∀ (t : Str) (p : Char), ∃ w, w.all isWhite = true ∧ t = w ++ (skipWs p t).rest
  | [], p => ⟨[], rfl, rfl⟩
  | c :: t, p => by
    rw [skipWs]
    split
    · rename_i h
      obtain ⟨w, h1, h2⟩ := skipWs_split t c
      exact ⟨c :: w, by simp [h, h1], by rw [List.cons_append, ← h2]⟩
    · exact ⟨[], rfl, rfl⟩

theorem touch_semi (c : Char) : mayTouch .free ';' c = true := by
  have h : inWord ';' = false := by decide
  simp only [mayTouch, h, Bool.false_and, Bool.not_false, Bool.true_and, opPairs, List.mem_cons, Prod.mk.injEq, List.not_mem_nil]
  simp

theorem next_semi {c : Char} (h : isSpaceC c = false) (w : Str) : nextCtx .free ';' w c = .free := by
  have h1 : (';'.isDigit || decide (';' = '.')) = false := by decide
  simp [nextCtx, h, h1]

theorem PR.text {x y : Pos} (h : PR pk pk' x y) : Respaced pk pk' .free ';' x.rest y.rest := by
  unfold PR at h
  obtain ⟨w, w1, w2⟩ := skipWs_split x.rest x.prev
  obtain ⟨w', w3, w4⟩ := skipWs_split y.rest y.prev
  change x.rest = w ++ x.skip.rest at w2
  change y.rest = w' ++ y.skip.rest at w4
  generalize x.skip = x1 at h w2
  generalize y.skip = y1 at h w4
  cases h with
  | done p q => rw [w2, w4]; simp only [List.append_nil]; exact .tail _ _ _ _ w1 w3
  | char p q k c t t' hc hp hs hk hq h =>
    rw [w2, w4]
    have hg : Gap .free ';' w w' c := .inr ⟨rfl, .inr (touch_semi c)⟩
    refine .put w1 w3 hc hg hk hq ?_
    cases hsp : isSpaceC c with
    | true => rw [nextCtx_space hsp, ← hs hsp]; exact h
    | false => rw [next_semi hsp]; exact h.forget

/-! ### Words -/

/-- Within a word. -/
theorem take_rel (f : Char → Bool) (hf : ∀ c, f c = true → inWord c = true) {k : Ctx} {p : Char} {t t' : Str} (h : Respaced pk pk' k p t t')
    (hp : inWord p = true) :
    t.takeWhile f = t'.takeWhile f ∧ ∃ k', Respaced pk pk' k' ((t.takeWhile f).getLastD p) (t.dropWhile f) (t'.dropWhile f) := by
  have hfw : ∀ c, inWord c = false → f c = false := by
    intro c hc
    cases h : f c with
    | false => rfl
    | true => rw [hf c h] at hc; cases hc
  have hwh : ∀ (v : Str) , v.all isWhite = true → v.takeWhile f = [] ∧ v.dropWhile f = v := by
    intro v hv
    cases v with
    | nil => exact ⟨rfl, rfl⟩
    | cons a v =>
      simp only [List.all_cons, Bool.and_eq_true] at hv
      simp [hfw a (white_word hv.1).2.2]
  have hwa : ∀ (v : Str) (c : Char) (u : Str), v.all isWhite = true → v ≠ [] ∨ f c = false →
      (v ++ c :: u).takeWhile f = [] ∧ (v ++ c :: u).dropWhile f = v ++ c :: u := by
    intro v c u hv hh
    cases v with
    | nil => rcases hh with hh | hh
             · exact absurd rfl hh
             · simp [hh]
    | cons a v =>
      simp only [List.all_cons, Bool.and_eq_true] at hv
      simp [hfw a (white_word hv.1).2.2]
  revert hp
  induction h using Spec.Respaced.rec' with
  | tail k p w w' hw hw' =>
    intro hp
    rw [(hwh w hw).1, (hwh w hw).2, (hwh w' hw').1, (hwh w' hw').2]
    exact ⟨rfl, _, .tail k _ _ _ hw hw'⟩
  | char k p w w' c u u' hw hw' hc hg hk hq h ih =>
    intro hp
    have stop : (w ≠ [] ∨ f c = false) → (w' ≠ [] ∨ f c = false) → (w ++ c :: u).takeWhile f = (w' ++ c :: u').takeWhile f ∧
        ∃ k', Respaced pk pk' k' (((w ++ c :: u).takeWhile f).getLastD p) ((w ++ c :: u).dropWhile f) ((w' ++ c :: u').dropWhile f) := by
      intro a b
      rw [(hwa w c u hw a).1, (hwa w c u hw a).2, (hwa w' c u' hw' b).1, (hwa w' c u' hw' b).2]
      exact ⟨rfl, _, .put hw hw' hc hg hk hq h⟩
    cases hfc : f c with
    | false => exact stop (.inr hfc) (.inr hfc)
    | true =>
      rcases hg with rfl | ⟨_, ⟨h1, h2⟩ | hm⟩
      · cases w with
        | cons a w => exact stop (.inl (by simp)) (.inl (by simp))
        | nil =>
          obtain ⟨i1, i2⟩ := ih (hf c hfc)
          simp only [List.nil_append, List.takeWhile_cons, hfc, if_true, List.dropWhile_cons]
          refine ⟨by rw [i1], ?_⟩
          rw [List.getLastD_cons]; exact i2
      · exact stop (.inl h1) (.inl h2)
      · simp [mayTouch, hp, hf c hfc] at hm

theorem lastD_append (a b : Str) (d : Char) : (a ++ b).getLastD d = b.getLastD (a.getLastD d) := by
  induction a generalizing d with
  | nil => rfl
  | cons c a ih => rw [List.cons_append, List.getLastD_cons, List.getLastD_cons]; exact ih c

theorem lastD_in {f : Char → Bool} (hf : ∀ c, f c = true → inWord c = true) {p : Char} (hp : inWord p = true) (t : Str) :
    inWord ((t.takeWhile f).getLastD p) = true := by
  induction t generalizing p with
  | nil => exact hp
  | cons c t ih =>
    rw [List.takeWhile_cons]
    split
    · rename_i h
      rw [List.getLastD_cons]
      exact ih (hf c h)
    · exact hp

/-- What follows a character of a word: the same character, or no character of a word. -/
theorem next_rel {k : Ctx} {p : Char} {t t' : Str} (h : Respaced pk pk' k p t t') (hp : inWord p = true) :
    (∃ c u u', t = c :: u ∧ t' = c :: u' ∧ Respaced pk pk' (nextCtx k p [] c) c u u') ∨
    ((∀ c u, t = c :: u → inWord c = false ∧ (k = .expo → isSign c = false)) ∧ ∀ c u, t' = c :: u → inWord c = false ∧ (k = .expo → isSign c = false)) := by
  have white : ∀ c, isWhite c = true → inWord c = false ∧ (k = .expo → isSign c = false) := by
    intro c hc
    refine ⟨(white_word hc).2.2, fun _ => ?_⟩
    simp only [isWhite, Bool.or_eq_true, decide_eq_true_eq] at hc
    rcases hc with ((rfl | rfl) | rfl) | rfl <;> decide
  have head : ∀ (w : Str), w.all isWhite = true → ∀ c u, w = c :: u → isWhite c = true := by
    rintro w hw c u rfl
    simp only [List.all_cons, Bool.and_eq_true] at hw
    exact hw.1
  rcases h.view with ⟨h1, h2⟩ | ⟨w, w', c, u, u', rfl, rfl, hw, hw', hc, hg, hk, hq, hn⟩
  · exact .inr ⟨fun c u e => white c (head t h1 c u e), fun c u e => white c (head t' h2 c u e)⟩
  · have app : ∀ (v : Str) (u : Str), v.all isWhite = true → v ≠ [] → ∀ d s, v ++ c :: u = d :: s →
        inWord d = false ∧ (k = .expo → isSign d = false) := by
      intro v u hv hn d s e
      cases v with
      | nil => exact absurd rfl hn
      | cons a v =>
        cases e
        simp only [List.all_cons, Bool.and_eq_true] at hv
        exact white _ hv.1
    rcases hg with rfl | ⟨_, ⟨h1, h2⟩ | hm⟩
    · cases w with
      | nil => exact .inl ⟨c, u, u', rfl, rfl, hn⟩
      | cons a w => exact .inr ⟨app _ _ hw (by simp), app _ _ hw (by simp)⟩
    · exact .inr ⟨app _ _ hw h1, app _ _ hw' h2⟩
    · have hcw : inWord c = false ∧ (k = .expo → isSign c = false) := by
        simp only [mayTouch, hp, Bool.true_and, Bool.and_eq_true, Bool.not_eq_true', Bool.and_eq_false_iff,
          decide_eq_false_iff_not] at hm
        exact ⟨hm.1.1.1, fun he => hm.1.2.resolve_left (fun hh => hh he)⟩
      have all : ∀ (v : Str) (u : Str), v.all isWhite = true → ∀ d s, v ++ c :: u = d :: s → inWord d = false ∧ (k = .expo → isSign d = false) := by
        intro v u hv
        cases v with
        | nil => intro d s e; cases e; exact hcw
        | cons a v => exact app _ _ hv (by simp)
      exact .inr ⟨all _ _ hw, all _ _ hw'⟩

theorem white_space {c : Char} (h : isWhite c = true) : isSpaceC c = true := by
  simp only [isWhite, Bool.or_eq_true, decide_eq_true_eq] at h
  rcases h with ((rfl | rfl) | rfl) | rfl <;> decide

theorem space_all {w : Str} (h : w.all isWhite = true) (t : Str) :
    (w ++ t).takeWhile isSpaceC = w ++ t.takeWhile isSpaceC ∧ (w ++ t).dropWhile isSpaceC = t.dropWhile isSpaceC := by
  induction w with
  | nil => exact ⟨rfl, rfl⟩
  | cons a w ih =>
    simp only [List.all_cons, Bool.and_eq_true] at h
    obtain ⟨i1, i2⟩ := ih h.2
    simp [white_space h.1, i1, i2]

/-- No number begins here. -/
def Dead (t : Str) : Prop := ∀ c u, t = c :: u → c.isDigit = false ∧ c ≠ '.'

/-- White space after a sign. -/
theorem stiff_rel {p : Char} {t t' : Str} (h : Respaced pk pk' .sign p t t') :
    (Dead (t.dropWhile isSpaceC) ∧ Dead (t'.dropWhile isSpaceC)) ∨
    (t.takeWhile isSpaceC = t'.takeWhile isSpaceC ∧ ∃ k c u u', t.dropWhile isSpaceC = c :: u ∧ t'.dropWhile isSpaceC = c :: u' ∧
      Respaced pk pk' k c u u') := by
  generalize hk : Ctx.sign = k at h
  revert hk
  induction h using Spec.Respaced.rec' with
  | tail k p w w' hw hw' =>
    intro _
    left
    have a := (space_all hw []).2
    have b := (space_all hw' []).2
    simp only [List.append_nil] at a b
    rw [a, b]
    constructor <;> (intro c u h; cases h)
  | char k p w w' c u u' hw hw' hc hg hk hq h ih =>
    rintro rfl
    rw [(space_all hw _).1, (space_all hw' _).1, (space_all hw _).2, (space_all hw' _).2]
    rcases hg with rfl | ⟨hg, _⟩
    · cases hs : isSpaceC c with
      | false => exact .inr ⟨by simp [hs], _, c, u, u', by simp [hs], by simp [hs], h⟩
      | true =>
        simp only [List.takeWhile_cons, hs, if_true, List.dropWhile_cons]
        rcases ih (nextCtx_space hs).symm with i | ⟨i1, i2⟩
        · exact .inl i
        · exact .inr ⟨by rw [i1], i2⟩
    · simp only [kept, decide_true, Bool.true_and, Bool.or_eq_false_iff, decide_eq_false_iff_not] at hg
      left
      simp only [List.dropWhile_cons, hg.2]
      constructor
      · rintro d s ⟨⟩; exact hg.1
      · rintro d s ⟨⟩; exact hg.1

theorem sign_rel {k : Ctx} {c : Char} {t t' : Str} (h : Respaced pk pk' k c t t') (hs : isSpaceC c = true ∨ isSign c = true → k = .sign) :
    (Dead (signTok (c :: t)).2 ∧ Dead (signTok (c :: t')).2) ∨ ((signTok (c :: t)).1 = (signTok (c :: t')).1 ∧
      ∃ k d u u', (signTok (c :: t)).2 = d :: u ∧ (signTok (c :: t')).2 = d :: u' ∧ Respaced pk pk' k d u u') := by
  by_cases h1 : c = '+'
  · subst h1
    cases hs (.inr rfl)
    rcases stiff_rel h with ⟨a, b⟩ | ⟨a, b⟩
    · exact .inl ⟨a, b⟩
    · exact .inr ⟨by simp only [signTok, a], b⟩
  by_cases h2 : c = '-'
  · subst h2
    cases hs (.inr rfl)
    rcases stiff_rel h with ⟨a, b⟩ | ⟨a, b⟩
    · exact .inl ⟨a, b⟩
    · exact .inr ⟨by simp only [signTok, a], b⟩
  have e : ∀ s, signTok (c :: s) = ((c :: s).takeWhile isSpaceC, (c :: s).dropWhile isSpaceC) := by
    intro s
    unfold signTok
    split
    · rename_i h; cases h; exact absurd rfl h1
    · rename_i h; cases h; exact absurd rfl h2
    · rfl
  rw [e, e]
  cases hsp : isSpaceC c with
  | false => exact .inr ⟨by simp [hsp], _, c, t, t', by simp [hsp], by simp [hsp], h⟩
  | true =>
    cases hs (.inl hsp)
    simp only [List.takeWhile_cons, hsp, if_true, List.dropWhile_cons]
    rcases stiff_rel h with i | ⟨i1, i2⟩
    · exact .inl i
    · exact .inr ⟨by rw [i1], i2⟩

/-! ### Numbers -/

/-- Related results of recognising a number. -/
def NR (pk pk' : Nat → Option Nat) (o o' : Option (Str × Str × Str)) : Prop :=
  (o = none ∧ o' = none) ∨ ∃ k a b r r', o = some (a, b, r) ∧ o' = some (a, b, r') ∧ Respaced pk pk' k ((a ++ b).getLastD ' ') r r'

theorem digit_in {c : Char} (h : c.isDigit = true) : inWord c = true := by
  simp [inWord, isWordC, Char.isAlphanum, h]

theorem ul_in {c : Char} (h : isUL c = true) : inWord c = true := by
  simp only [isUL, Bool.or_eq_true, decide_eq_true_eq] at h
  rcases h with rfl | rfl <;> decide

theorem hex_in {c : Char} (h : isHexC c = true) : inWord c = true := by
  simp only [isHexC, Bool.or_eq_true, Bool.and_eq_true, decide_eq_true_eq] at h
  have : c.isAlphanum = true := by
    simp only [Char.isAlphanum, Char.isAlpha, Char.isUpper, Char.isLower, Bool.or_eq_true]
    rcases h with (h | ⟨h1, h2⟩) | ⟨h1, h2⟩
    · exact .inr h
    · left; right
      simp only [Char.le_def, UInt32.le_iff_toNat_le, Bool.and_eq_true, decide_eq_true_eq, ge_iff_le] at h1 h2 ⊢
      exact ⟨h1, Nat.le_trans h2 (by decide)⟩
    · left; left
      simp only [Char.le_def, UInt32.le_iff_toNat_le, Bool.and_eq_true, decide_eq_true_eq, ge_iff_le] at h1 h2 ⊢
      exact ⟨h1, Nat.le_trans h2 (by decide)⟩
  simp [inWord, isWordC, this]

/-- Digits and suffix. -/
theorem suffix_rel (f : Char → Bool) (hf : ∀ c, f c = true → inWord c = true) (g : Str) {k : Ctx} {p : Char} {t t' : Str} (h : Respaced pk pk' k p t t')
    (hp : inWord p = true) : NR pk pk' (some (g ++ p :: t.takeWhile f, (t.dropWhile f).takeWhile isUL, (t.dropWhile f).dropWhile isUL))
      (some (g ++ p :: t'.takeWhile f, (t'.dropWhile f).takeWhile isUL, (t'.dropWhile f).dropWhile isUL)) := by
  obtain ⟨a1, k1, a2⟩ := take_rel f hf h hp
  obtain ⟨b1, k2, b2⟩ := take_rel isUL (fun _ => ul_in) a2 (lastD_in hf hp t)
  refine .inr ⟨k2, _, _, _, _, rfl, by rw [a1, b1], ?_⟩
  rw [lastD_append, lastD_append, List.getLastD_cons]
  exact b2

theorem dec_rel {k : Ctx} {c : Char} {t t' : Str} (h : Respaced pk pk' k c t t')
    (hs : isSpaceC c = true ∨ isSign c = true → k = .sign) : NR pk pk' (decTok (c :: t)) (decTok (c :: t')) := by
  unfold decTok
  rcases sign_rel h hs with ⟨a, b⟩ | ⟨a, k, d, u, u', b, b', hr⟩
  · cases e : signTok (c :: t) with
    | mk g r =>
      cases e' : signTok (c :: t') with
      | mk g' r' =>
        rw [e] at a; rw [e'] at b
        simp only at a b
        have key : ∀ w : Str, Dead w → (match (g, w) with
            | (g, d :: r) =>
              if d.isDigit = true then
                some (g ++ d :: r.takeWhile Char.isDigit, (r.dropWhile Char.isDigit).takeWhile isUL, (r.dropWhile Char.isDigit).dropWhile isUL)
              else none
            | _ => none) = none := by
          intro w hw
          cases w with
          | nil => rfl
          | cons d w => simp only [(hw d w rfl).1]; rfl
        exact .inl ⟨key r a, by
          have := key r' b
          cases r' with
          | nil => rfl
          | cons d w => simp only [(b d w rfl).1]; rfl⟩
  · cases e : signTok (c :: t) with
    | mk g r =>
      cases e' : signTok (c :: t') with
      | mk g' r' =>
        rw [e] at a b; rw [e'] at a b'
        simp only at a b b'
        subst a; subst b; subst b'
        simp only
        cases hd : d.isDigit with
        | false => exact .inl ⟨rfl, rfl⟩
        | true => exact suffix_rel _ (fun _ => digit_in) g hr (digit_in hd)

theorem hex_rel {k : Ctx} {c : Char} {t t' : Str} (h : Respaced pk pk' k c t t')
    (hs : isSpaceC c = true ∨ isSign c = true → k = .sign) : NR pk pk' (hexTok (c :: t)) (hexTok (c :: t')) := by
  unfold hexTok
  rcases sign_rel h hs with ⟨a, b⟩ | ⟨a, k, d, u, u', b, b', hr⟩
  · cases e : signTok (c :: t) with
    | mk g r =>
      cases e' : signTok (c :: t') with
      | mk g' r' =>
        rw [e] at a; rw [e'] at b
        simp only at a b
        have key : ∀ (g w : Str), Dead w → (match (g, w) with
            | (g, '0' :: x :: h :: r) =>
              if ((x = 'x' || x = 'X') && isHexC h) = true then
                some (g ++ '0' :: x :: h :: r.takeWhile isHexC, (r.dropWhile isHexC).takeWhile isUL,
                  (r.dropWhile isHexC).dropWhile isUL)
              else none
            | _ => none) = none := by
          intro g w hw
          split
          · rename_i hh; cases hh
            exact absurd (hw _ _ rfl).1 (by decide)
          · rfl
        exact .inl ⟨key _ _ a, key _ _ b⟩
  · cases e : signTok (c :: t) with
    | mk g r =>
      cases e' : signTok (c :: t') with
      | mk g' r' =>
        rw [e] at a b; rw [e'] at a b'
        simp only at a b b'
        subst a; subst b; subst b'
        by_cases h0 : d = '0'
        · subst h0
          rcases next_rel hr (by decide) with ⟨x, v, v', rfl, rfl, hr1⟩ | ⟨n1, n2⟩
          · by_cases hx : x = 'x' ∨ x = 'X'
            · have hxw : inWord x = true := by rcases hx with rfl | rfl <;> decide
              rcases next_rel hr1 hxw with ⟨y, s, s', rfl, rfl, hr2⟩ | ⟨n1, n2⟩
              · simp only
                cases hy : isHexC y with
                | false => simp; exact .inl ⟨rfl, rfl⟩
                | true =>
                  have : ((x = 'x' || x = 'X') && true) = true := by simpa using hx
                  simp only [this, if_true]
                  have := suffix_rel (pk := pk) (pk' := pk') isHexC (fun _ => hex_in) (g ++ ['0', x]) hr2 (hex_in hy)
                  simpa using this
              · have key : ∀ w, (∀ c u, w = c :: u → inWord c = false) →
                    (match (g, '0' :: x :: w) with
                      | (g, '0' :: x :: h :: r) =>
                        if ((x = 'x' || x = 'X') && isHexC h) = true then
                          some (g ++ '0' :: x :: h :: r.takeWhile isHexC, (r.dropWhile isHexC).takeWhile isUL,
                            (r.dropWhile isHexC).dropWhile isUL)
                        else none
                      | _ => none) = none := by
                  intro w hw
                  cases w with
                  | nil => rfl
                  | cons y w =>
                    have hy : isHexC y = false := by
                      cases hh : isHexC y with
                      | false => rfl
                      | true => have := hw y w rfl; rw [hex_in hh] at this; cases this
                    simp [hy]
                exact .inl ⟨key _ (fun c u e => (n1 c u e).1), key _ (fun c u e => (n2 c u e).1)⟩
            · have key : ∀ w, (match (g, '0' :: x :: w) with
                  | (g, '0' :: x :: h :: r) =>
                    if ((x = 'x' || x = 'X') && isHexC h) = true then
                      some (g ++ '0' :: x :: h :: r.takeWhile isHexC, (r.dropWhile isHexC).takeWhile isUL,
                        (r.dropWhile isHexC).dropWhile isUL)
                    else none
                  | _ => none) = none := by
                intro w
                cases w with
                | nil => rfl
                | cons y w =>
                  have : (decide (x = 'x') || decide (x = 'X')) = false := by simpa using hx
                  simp only [this, Bool.false_and]
                  rfl
              exact .inl ⟨key _, key _⟩
          · have key : ∀ w, (∀ c u, w = c :: u → inWord c = false) →
                (match (g, '0' :: w) with
                  | (g, '0' :: x :: h :: r) =>
                    if ((x = 'x' || x = 'X') && isHexC h) = true then
                      some (g ++ '0' :: x :: h :: r.takeWhile isHexC, (r.dropWhile isHexC).takeWhile isUL,
                        (r.dropWhile isHexC).dropWhile isUL)
                    else none
                  | _ => none) = none := by
              intro w hw
              match w with
              | [] => rfl
              | [x] => rfl
              | x :: y :: w =>
                have : (decide (x = 'x') || decide (x = 'X')) = false := by
                  have := hw x _ rfl
                  rw [Bool.eq_false_iff]
                  intro hx
                  simp only [Bool.or_eq_true, decide_eq_true_eq] at hx
                  rcases hx with rfl | rfl <;> revert this <;> decide
                simp only [this, Bool.false_and]
                rfl
            exact .inl ⟨key _ (fun c u e => (n1 c u e).1), key _ (fun c u e => (n2 c u e).1)⟩
        · left
          constructor
          · split
            · rename_i hh; cases hh; exact absurd rfl h0
            · rfl
          · split
            · rename_i hh; cases hh; exact absurd rfl h0
            · rfl


/-- Digits after the sign of an exponent. -/
theorem take_stiff {p : Char} {t t' : Str} (h : Respaced pk pk' .expoSign p t t') : t.takeWhile Char.isDigit = t'.takeWhile Char.isDigit ∧
      (t.takeWhile Char.isDigit ≠ [] → ∃ k, Respaced pk pk' k ((t.takeWhile Char.isDigit).getLastD p) (t.dropWhile Char.isDigit) (t'.dropWhile Char.isDigit)) := by
  have hwh : ∀ (a : Char) (v : Str) , isWhite a = true → (a :: v).takeWhile Char.isDigit = [] := by
    intro a v ha
    have : a.isDigit = false := by
      cases h : a.isDigit with
      | false => rfl
      | true => have := (white_word ha).2.2; rw [digit_in h] at this; cases this
    simp [this]
  have hall : ∀ v : Str, v.all isWhite = true → v.takeWhile Char.isDigit = [] := by
    intro v hv
    cases v with
    | nil => rfl
    | cons a v =>
      simp only [List.all_cons, Bool.and_eq_true] at hv
      exact hwh a v hv.1
  have happ : ∀ (v : Str) (c : Char) (u : Str), v.all isWhite = true → v ≠ [] ∨ c.isDigit = false → (v ++ c :: u).takeWhile Char.isDigit = [] := by
    intro v c u hv hh
    cases v with
    | nil =>
      rcases hh with hh | hh
      · exact absurd rfl hh
      · simp [hh]
    | cons a v =>
      simp only [List.all_cons, Bool.and_eq_true] at hv
      exact hwh a _ hv.1
  rcases h.view with ⟨h1, h2⟩ | ⟨w, w', c, u, u', rfl, rfl, hw, hw', hc, hg, hk, hq, hn⟩
  · rw [hall _ h1, hall _ h2]
    exact ⟨rfl, fun h => absurd rfl h⟩
  · have stop : (w ≠ [] ∨ c.isDigit = false) → (w' ≠ [] ∨ c.isDigit = false) → _ := fun a b => And.intro (happ w c u hw a) (happ w' c u' hw' b)
    rcases hg with rfl | ⟨_, ⟨h1, h2⟩ | hm⟩
    · cases w with
      | cons a w =>
        obtain ⟨a1, a2⟩ := stop (.inl (by simp)) (.inl (by simp))
        rw [a1, a2]
        exact ⟨rfl, fun h => absurd rfl h⟩
      | nil =>
        cases hfc : c.isDigit with
        | false => simp [hfc]
        | true =>
          obtain ⟨a, b⟩ := take_rel Char.isDigit (fun _ => digit_in) hn (digit_in hfc)
          simp only [List.nil_append, List.takeWhile_cons, hfc, if_true, List.dropWhile_cons, List.getLastD_cons]
          exact ⟨by rw [a], fun _ => b⟩
    · obtain ⟨a1, a2⟩ := stop (.inl h1) (.inl h2)
      rw [a1, a2]
      exact ⟨rfl, fun h => absurd rfl h⟩
    · simp only [mayTouch, Bool.and_eq_true, decide_true, Bool.true_and, Bool.not_eq_true'] at hm
      obtain ⟨a1, a2⟩ := stop (.inr hm.2) (.inr hm.2)
      rw [a1, a2]
      exact ⟨rfl, fun h => absurd rfl h⟩

theorem last_d {t : Str} (h : t ≠ []) (p q : Char) : t.getLastD p = t.getLastD q := by
  cases t with
  | nil => exact absurd rfl h
  | cons a t => rw [List.getLastD_cons, List.getLastD_cons]

/-- Related results of recognising the exponent. -/
def ER (pk pk' : Nat → Option Nat) (o o' : Option (Str × Str)) : Prop :=
  (o = none ∧ o' = none) ∨ ∃ k a r r', o = some (a, r) ∧ o' = some (a, r') ∧ a ≠ [] ∧ Respaced pk pk' k (a.getLastD ' ') r r'

/-- The digits of the exponent, after `e` and its sign. -/
def expoEnd (e : Char) (g t : Str) : Option (Str × Str) :=
  match t.takeWhile Char.isDigit with
  | [] => none
  | ds => some (e :: g ++ ds, t.dropWhile Char.isDigit)

theorem expo_fin (e : Char) (g : Str) (p : Char) {t t' : Str} (hl : (e :: g).getLastD ' ' = p)
    (h : t.takeWhile Char.isDigit = t'.takeWhile Char.isDigit ∧ (t.takeWhile Char.isDigit ≠ [] →
      ∃ k, Respaced pk pk' k ((t.takeWhile Char.isDigit).getLastD p) (t.dropWhile Char.isDigit) (t'.dropWhile Char.isDigit))) :
    ER pk pk' (expoEnd e g t) (expoEnd e g t') := by
  obtain ⟨a, b⟩ := h
  unfold expoEnd
  rw [← a]
  cases hd : t.takeWhile Char.isDigit with
  | nil => exact .inl ⟨rfl, rfl⟩
  | cons x ds =>
    rw [hd] at b
    obtain ⟨k, b⟩ := b (by simp)
    refine .inr ⟨k, _, _, _, rfl, rfl, by simp, ?_⟩
    rw [lastD_append, hl]
    exact b

theorem expo_plus {e : Char} (he : e = 'e' ∨ e = 'E') (w : Str) : expoTok (e :: '+' :: w) = expoEnd e ['+'] w := by
  rcases he with rfl | rfl <;> rfl

theorem expo_minus {e : Char} (he : e = 'e' ∨ e = 'E') (w : Str) : expoTok (e :: '-' :: w) = expoEnd e ['-'] w := by
  rcases he with rfl | rfl <;> rfl

theorem expo_plain {e : Char} (he : e = 'e' ∨ e = 'E') (w : Str) (h : ∀ c u, w = c :: u → c ≠ '+' ∧ c ≠ '-') : expoTok (e :: w) = expoEnd e [] w := by
  have hd : (decide (e = 'e') || decide (e = 'E')) = true := by simpa using he
  cases w with
  | nil => simp [expoTok, hd, expoEnd]
  | cons c u =>
    obtain ⟨h1, h2⟩ := h c u rfl
    simp only [expoTok, hd, if_true, expoEnd]
    split
    · rename_i h; split at h
      · rename_i hh; cases hh; exact absurd rfl h1
      · rename_i hh; cases hh; exact absurd rfl h2
      · rw [h]
    · rename_i hn; split at hn
      · rename_i hh; cases hh; exact absurd rfl h1
      · rename_i hh; cases hh; exact absurd rfl h2
      · split
        · rename_i h; exact absurd h hn
        · simp

theorem expo_none {t : Str} (h : ∀ c u, t = c :: u → inWord c = false) : expoTok t = none := by
  cases t with
  | nil => rfl
  | cons c u =>
    have := h c u rfl
    have h1 : c ≠ 'e' := by rintro rfl; revert this; decide
    have h2 : c ≠ 'E' := by rintro rfl; revert this; decide
    simp [expoTok, h1, h2]

theorem sign_ne {c : Char} (h : isSign c = false) : c ≠ '+' ∧ c ≠ '-' := by
  simpa only [isSign, Bool.or_eq_false_iff, decide_eq_false_iff_not] using h

theorem expo_rel {k : Ctx} {p : Char} {t t' : Str} (h : Respaced pk pk' k p t t') (hp : p.isDigit = true ∨ p = '.') :
    ER pk pk' (expoTok t) (expoTok t') := by
  have hpw : inWord p = true := by
    rcases hp with hp | rfl
    · exact digit_in hp
    · decide
  rcases next_rel h hpw with ⟨e, u, u', rfl, rfl, hr⟩ | ⟨n1, n2⟩
  · by_cases he : e = 'e' ∨ e = 'E'
    · have hew : inWord e = true := by rcases he with rfl | rfl <;> decide
      have hes : isSpaceC e = false := by rcases he with rfl | rfl <;> decide
      have heg : isSign e = false := by rcases he with rfl | rfl <;> decide
      have hctx : nextCtx k p [] e = .expo := by
        have h1 : (decide (e = 'e') || decide (e = 'E')) = true := by simpa using he
        have h2 : (p.isDigit || decide (p = '.')) = true := by simpa using hp
        simp [nextCtx, hes, heg, h1, h2]
      rw [hctx] at hr
      obtain ⟨a, b⟩ := take_rel Char.isDigit (fun _ => digit_in) hr hew
      have hnx : ∀ s, s = '+' ∨ s = '-' → nextCtx .expo e [] s = .expoSign := by
        rcases he with rfl | rfl <;> (rintro s (rfl | rfl) <;> decide)
      rcases next_rel hr hew with ⟨s, v, v', rfl, rfl, hr2⟩ | ⟨n1, n2⟩
      · by_cases h1 : s = '+'
        · subst h1
          rw [hnx _ (.inl rfl)] at hr2
          rw [expo_plus he, expo_plus he]
          exact expo_fin e ['+'] '+' rfl (take_stiff hr2)
        by_cases h2 : s = '-'
        · subst h2
          rw [hnx _ (.inr rfl)] at hr2
          rw [expo_minus he, expo_minus he]
          exact expo_fin e ['-'] '-' rfl (take_stiff hr2)
        rw [expo_plain he _ (by rintro c u ⟨⟩; exact ⟨h1, h2⟩), expo_plain he _ (by rintro c u ⟨⟩; exact ⟨h1, h2⟩)]
        exact expo_fin e [] e rfl ⟨a, fun _ => b⟩
      · rw [expo_plain he _ (fun c u h => sign_ne ((n1 c u h).2 rfl)), expo_plain he _ (fun c u h => sign_ne ((n2 c u h).2 rfl))]
        exact expo_fin e [] e rfl ⟨a, fun _ => b⟩
    · have hd : (decide (e = 'e') || decide (e = 'E')) = false := by simpa using he
      simp only [expoTok, hd]
      exact .inl ⟨rfl, rfl⟩
  · exact .inl ⟨expo_none (fun c u h => (n1 c u h).1), expo_none (fun c u h => (n2 c u h).1)⟩

theorem lastD_mant (p : Char) (hp : p.isDigit = true ∨ p = '.') : ∀ t : Str,
    ((t.takeWhile Char.isDigit).getLastD p).isDigit = true ∨ (t.takeWhile Char.isDigit).getLastD p = '.'
  | [] => hp
  | c :: t => by
    cases h : c.isDigit with
    | false => simpa [List.takeWhile_cons, h] using hp
    | true =>
      simp only [List.takeWhile_cons, h, if_true, List.getLastD_cons]
      exact lastD_mant c (.inl h) t

/-- Related results of recognising the mantissa. -/
def MR (pk pk' : Nat → Option Nat) (o o' : Option (Bool × Str × Str)) : Prop :=
  (o = none ∧ o' = none) ∨ ∃ k b a r r', o = some (b, a, r) ∧ o' = some (b, a, r') ∧ ((a.getLastD ' ').isDigit = true ∨ a.getLastD ' ' = '.') ∧
    a ≠ [] ∧ Respaced pk pk' k (a.getLastD ' ') r r'

theorem mant_rel {k : Ctx} {d : Char} {u u' : Str} (hr : Respaced pk pk' k d u u') : MR pk pk' (mantTok (d :: u)) (mantTok (d :: u')) := by
  by_cases h0 : d = '.'
  · subst h0
    obtain ⟨a, k1, b⟩ := take_rel Char.isDigit (fun _ => digit_in) hr (by decide)
    have hi := lastD_mant '.' (.inr rfl) u
    simp only [mantTok]
    rw [← a]
    cases hd : u.takeWhile Char.isDigit with
    | nil => exact .inl ⟨rfl, rfl⟩
    | cons x ds =>
      rw [hd] at b hi
      exact .inr ⟨_, _, _, _, _, rfl, rfl, by rw [List.getLastD_cons]; exact hi, by simp, by rw [List.getLastD_cons]; exact b⟩
  cases hd : d.isDigit with
  | false =>
    have key : ∀ w, mantTok (d :: w) = none := by
      intro w
      unfold mantTok
      split
      · rename_i h; cases h; exact absurd rfl h0
      · rename_i h; cases h; simp [hd]
      · rename_i h; cases h; simp [hd]
      · rfl
    exact .inl ⟨key _, key _⟩
  | true =>
    have hdw := digit_in hd
    have plain : ∀ w, (∀ c v, w = c :: v → c ≠ '.') → mantTok (d :: w) = some (false, [d], w) := by
      intro w hw
      unfold mantTok
      split
      · rename_i h; cases h; exact absurd rfl h0
      · rename_i h; cases h; exact absurd rfl (hw _ _ rfl)
      · rename_i h; cases h; simp [hd]
      · rename_i h; cases h
    rcases next_rel hr hdw with ⟨x, v, v', rfl, rfl, hr2⟩ | ⟨n1, n2⟩
    · by_cases hx : x = '.'
      · subst hx
        have point : ∀ w, mantTok (d :: '.' :: w) = some (true, d :: '.' :: w.takeWhile Char.isDigit, w.dropWhile Char.isDigit) := by
          intro w
          unfold mantTok
          split
          · rename_i h; cases h; exact absurd rfl h0
          · rename_i h; cases h; simp [hd]
          · rename_i h1 h2 h; cases h; exact absurd rfl (h2 _)
          · rename_i h; cases h
        obtain ⟨a, k1, b⟩ := take_rel Char.isDigit (fun _ => digit_in) hr2 (by decide)
        have hi := lastD_mant '.' (.inr rfl) v
        rw [point, point]
        exact .inr ⟨_, _, _, _, _, rfl, by rw [a], by simpa only [List.getLastD_cons] using hi, by simp, by simpa only [List.getLastD_cons] using b⟩
      · rw [plain _ (by intro c v h; cases h; exact hx), plain _ (by intro c v h; cases h; exact hx)]
        exact .inr ⟨_, _, _, _, _, rfl, rfl, .inl hd, by simp, hr⟩
    · have key : ∀ w : Str, (∀ c u, w = c :: u → inWord c = false) → ∀ c v, w = c :: v → c ≠ '.' := by
        rintro w hw c v e rfl
        have := hw _ _ e
        revert this; decide
      rw [plain _ (key _ (fun c u h => (n1 c u h).1)), plain _ (key _ (fun c u h => (n2 c u h).1))]
      exact .inr ⟨_, _, _, _, _, rfl, rfl, .inl hd, by simp, hr⟩

theorem lastD_app_ne {a b : Str} (h : b ≠ []) : (a ++ b).getLastD ' ' = b.getLastD ' ' := by
  rw [lastD_append]; exact last_d h _ _

theorem float_rel {k : Ctx} {c : Char} {t t' : Str} (h : Respaced pk pk' k c t t')
    (hs : isSpaceC c = true ∨ isSign c = true → k = .sign) : NR pk pk' (floatTok (c :: t)) (floatTok (c :: t')) := by
  unfold floatTok
  rcases sign_rel h hs with ⟨a, b⟩ | ⟨a, k, d, u, u', b, b', hr⟩
  · have key : ∀ w : Str, Dead w → mantTok w = none := by
      intro w hw
      cases w with
      | nil => rfl
      | cons d w =>
        unfold mantTok
        split
        · rename_i h; cases h; exact absurd rfl (hw _ _ rfl).2
        · rename_i h; cases h; simp [(hw _ _ rfl).1]
        · rename_i h; cases h; simp [(hw _ _ rfl).1]
        · rfl
    rw [key _ a, key _ b]; exact .inl ⟨rfl, rfl⟩
  · rw [← a, b, b']
    rcases mant_rel hr with ⟨m1, m2⟩ | ⟨k1, pt, m, r, r', m1, m2, mi, mn, mr⟩
    · rw [m1, m2]; exact .inl ⟨rfl, rfl⟩
    · rw [m1, m2]
      rcases expo_rel mr mi with ⟨e1, e2⟩ | ⟨k2, e, s, s', e1, e2, en, er⟩
      · simp only [e1, e2]
        cases pt with
        | false => exact .inl ⟨rfl, rfl⟩
        | true => exact .inr ⟨_, _, _, _, _, rfl, rfl, by rw [List.append_nil, lastD_app_ne mn]; exact mr⟩
      · simp only [e1, e2]
        exact .inr ⟨_, _, _, _, _, rfl, rfl, by rw [List.append_nil, lastD_app_ne en]; exact er⟩

theorem NR.or {a a' b b' : Option (Str × Str × Str)} (h : NR pk pk' a a') (h' : NR pk pk' b b') : NR pk pk' (a.or b) (a'.or b') := by
  rcases h with ⟨h1, h2⟩ | ⟨k, x, y, r, r', h1, h2, hr⟩
  · rw [h1, h2]; exact h'
  · rw [h1, h2]; exact .inr ⟨k, x, y, r, r', rfl, rfl, hr⟩

theorem integer_rel {k : Ctx} {c : Char} {t t' : Str} (h : Respaced pk pk' k c t t')
    (hs : isSpaceC c = true ∨ isSign c = true → k = .sign) : NR pk pk' (integerTok (c :: t)) (integerTok (c :: t')) :=
  (hex_rel h hs).or (dec_rel h hs)

/-! ### Related results -/

/-- Related results of an element of the grammar. -/
def OR (pk pk' : Nat → Option Nat) {α : Type} (o o' : Option (α × Pos)) : Prop :=
  (o = none ∧ o' = none) ∨ ∃ a u v, o = some (a, u) ∧ o' = some (a, v) ∧ PR pk pk' u v

/-- Related positions after an element. -/
def OP (pk pk' : Nat → Option Nat) (o o' : Option Pos) : Prop :=
  (o = none ∧ o' = none) ∨ ∃ u v, o = some u ∧ o' = some v ∧ PR pk pk' u v

/-- Related results of an element that always matches. -/
def TR (pk pk' : Nat → Option Nat) {α : Type} (p q : α × Pos) : Prop := ∃ a u v, p = (a, u) ∧ q = (a, v) ∧ PR pk pk' u v

/-- Related results of an element with side effects. -/
def SR (pk pk' : Nat → Option Nat) {α : Type} (p q : Store DefVal × Option (α × Pos)) : Prop :=
  ∃ s, (p = (s, none) ∧ q = (s, none)) ∨ ∃ a u v, p = (s, some (a, u)) ∧ q = (s, some (a, v)) ∧ PR pk pk' u v

/-- Related results of an element with side effects that always matches. -/
def STR (pk pk' : Nat → Option Nat) {α : Type} (p q : Store DefVal × (α × Pos)) : Prop :=
  ∃ s a u v, p = (s, (a, u)) ∧ q = (s, (a, v)) ∧ PR pk pk' u v

theorem NR.map {a a' : Option (Str × Str × Str)} (h : NR pk pk' a a') : OR pk pk' (a.map numEnd) (a'.map numEnd) := by
  rcases h with ⟨h1, h2⟩ | ⟨k, x, y, r, r', h1, h2, hr⟩
  · rw [h1, h2]; exact .inl ⟨rfl, rfl⟩
  · rw [h1, h2]; exact .inr ⟨x, _, _, rfl, rfl, hr.pos⟩

variable {x y : Pos}

/-- Positions where a number may begin: if a sign is next, the white space behind it is kept in front of a number. -/
def NumAt (pk pk' : Nat → Option Nat) (x y : Pos) : Prop :=
  PR pk pk' x y ∧ ∀ c t t', x.skip.rest = c :: t → y.skip.rest = c :: t' → isSign c = true → Respaced pk pk' .sign c t t'

theorem sign_space {c : Char} (h : isSign c = true) : isSpaceC c = false := by
  simp only [isSign, Bool.or_eq_true, decide_eq_true_eq] at h
  rcases h with rfl | rfl <;> decide

theorem NumAt.intro {p : Char} (hp : p = ')' ∨ p = ':') {k : Ctx} {t t' : Str} (h : Respaced pk pk' k p t t') : NumAt pk pk' ⟨p, t⟩ ⟨p, t'⟩ := by
  refine ⟨h.pos, ?_⟩
  rintro c u u' h1 h2 hc
  rcases h.view with ⟨a, b⟩ | ⟨w, w', d, v, v', rfl, rfl, hw, hw', hd, hg, hk, hq, hn⟩
  · simp only [Pos.skip, skipWs_wh _ _ a] at h1; cases h1
  · simp only [Pos.skip, skipWs_app _ _ _ _ hw hd] at h1
    simp only [Pos.skip, skipWs_app _ _ _ _ hw' hd] at h2
    cases h1; cases h2
    have : nextCtx k p w c = .sign := by
      have hp : (decide (p = ')') || decide (p = ':')) = true := by simpa using hp
      simp [nextCtx, hc, hp]
    rw [this] at hn
    exact hn

theorem NumAt.plain (h : PR pk pk' x y) (hn : ∀ c t, x.skip.rest = c :: t → isSign c = false) : NumAt pk pk' x y :=
  ⟨h, fun c t _ h1 _ hc => by rw [hn c t h1] at hc; cases hc⟩

theorem integerP_rel (h : NumAt pk pk' x y) : OR pk pk' (integerP x) (integerP y) := by
  obtain ⟨h, hn⟩ := h
  unfold integerP
  unfold PR at h
  generalize x.skip = x1 at h hn
  generalize y.skip = y1 at h hn
  cases h with
  | done p q => exact .inl ⟨rfl, rfl⟩
  | char p q kx c t t' hc hp hsp hk hq h =>
    by_cases hs : isSign c = true
    · exact (integer_rel (hn c t t' rfl rfl hs) (fun _ => rfl)).map
    · exact (integer_rel h (fun hh => hh.elim hsp (fun h => absurd h hs))).map

theorem numberP_rel (h : NumAt pk pk' x y) : OR pk pk' (numberP x) (numberP y) := by
  obtain ⟨h, hn⟩ := h
  unfold numberP
  unfold PR at h
  generalize x.skip = x1 at h hn
  generalize y.skip = y1 at h hn
  cases h with
  | done p q => exact .inl ⟨rfl, rfl⟩
  | char p q kx c t t' hc hp hsp hk hq h =>
    by_cases hs : isSign c = true
    · have h := hn c t t' rfl rfl hs
      exact ((float_rel h (fun _ => rfl)).or (integer_rel h (fun _ => rfl))).map
    · have hsp : isSpaceC c = true ∨ isSign c = true → kx = .sign := fun hh => hh.elim hsp (fun h => absurd h hs)
      exact ((float_rel h hsp).or (integer_rel h hsp)).map

theorem lit_rel (c : Char) (h : PR pk pk' x y) : OP pk pk' (lit c x) (lit c y) := by
  unfold lit
  unfold PR at h
  generalize x.skip = x1 at h
  generalize y.skip = y1 at h
  cases h with
  | done p q => exact .inl ⟨rfl, rfl⟩
  | char p q kx d t t' hc hp hsp hk hq h =>
    simp only
    by_cases hd : d = c
    · subst hd; simp only [if_true]; exact .inr ⟨_, _, rfl, rfl, h.pos⟩
    · simp only [hd, if_false]; exact .inl ⟨rfl, rfl⟩

theorem lit_num {c : Char} (hc : c = ')' ∨ c = ':') (h : PR pk pk' x y) :
    (lit c x = none ∧ lit c y = none) ∨ ∃ u v, lit c x = some u ∧ lit c y = some v ∧ NumAt pk pk' u v := by
  unfold lit
  unfold PR at h
  generalize x.skip = x1 at h
  generalize y.skip = y1 at h
  cases h with
  | done p q => exact .inl ⟨rfl, rfl⟩
  | char p q kx d t t' hc' hp hsp hk hq h =>
    simp only
    by_cases hd : d = c
    · subst hd; simp only [if_true]; exact .inr ⟨_, _, rfl, rfl, .intro hc h⟩
    · simp only [hd, if_false]; exact .inl ⟨trivial, trivial⟩

theorem quotedTok_rel (h : PR pk pk' x y) : OR pk pk' (quotedTok x) (quotedTok y) := by
  unfold quotedTok
  unfold PR at h
  generalize x.skip = x1 at h
  generalize y.skip = y1 at h
  cases h with
  | done p q => exact .inl ⟨rfl, rfl⟩
  | char p q kx d t t' hc hp hsp hk hq h =>
    change OR _ _ (if isQuoteC d = true then _ else _) (if isQuoteC d = true then _ else _)
    by_cases hd : isQuoteC d = true
    · rw [if_pos hd, if_pos hd]
      rcases hq hd with ⟨h1, h2⟩ | ⟨a, r, r', h1, h2, hr⟩
      · rw [h1, h2]; exact .inl ⟨rfl, rfl⟩
      · rw [h1, h2]; exact .inr ⟨_, _, _, rfl, rfl, hr.pos⟩
    · rw [if_neg hd, if_neg hd]; exact .inl ⟨rfl, rfl⟩

theorem skipQuoted_rel : ∀ (n : Nat) {x y : Pos}, PR pk pk' x y → PR pk pk' (skipQuoted n x) (skipQuoted n y)
  | 0, x, y, h => h
  | n + 1, x, y, h => by
    rcases quotedTok_rel h with ⟨h1, h2⟩ | ⟨a, u, v, h1, h2, hr⟩
    · simp only [skipQuoted, h1, h2]; exact h
    · simp only [skipQuoted, h1, h2]; exact skipQuoted_rel n hr

/-- A bound for both texts. -/
def both (x y : Pos) : Nat := x.rest.length + y.rest.length

theorem delim_rel (c : Char) (h : PR pk pk' x y) : OP pk pk' (delim c x) (delim c y) := by
  unfold delim
  rw [skipQuoted_fuel _ (both x y) x (Nat.le_refl _) (by unfold both; omega), skipQuoted_fuel _ (both x y) y (Nat.le_refl _) (by unfold both; omega)]
  exact lit_rel c (skipQuoted_rel _ h)

theorem delim_num {c : Char} (hc : c = ')' ∨ c = ':') (h : PR pk pk' x y) :
    (delim c x = none ∧ delim c y = none) ∨ ∃ u v, delim c x = some u ∧ delim c y = some v ∧ NumAt pk pk' u v := by
  unfold delim
  rw [skipQuoted_fuel _ (both x y) x (Nat.le_refl _) (by unfold both; omega), skipQuoted_fuel _ (both x y) y (Nat.le_refl _) (by unfold both; omega)]
  exact lit_num hc (skipQuoted_rel _ h)

theorem word_in {c : Char} (h : isWordC c = true) : inWord c = true := id_inWord (word_id h)

/-- A word at related positions. -/
theorem word_rel (f : Char → Bool) (hf : ∀ c, f c = true → inWord c = true) {k : Ctx} {c : Char} {t t' : Str} (h : Respaced pk pk' k c t t') (hc : f c = true) :
    (c :: t).takeWhile f = (c :: t').takeWhile f ∧
      PR pk pk' (posAfter ((c :: t).takeWhile f) ((c :: t).dropWhile f)) (posAfter ((c :: t').takeWhile f) ((c :: t').dropWhile f)) := by
  obtain ⟨a, k1, b⟩ := take_rel f hf h (hf c hc)
  simp only [List.takeWhile_cons, List.dropWhile_cons, hc, if_true, ← a, posAfter, List.getLastD_cons]
  exact ⟨trivial, b.pos⟩

theorem kwl_rel {ws : List Str} (hw : [] ∉ ws) (h : PR pk pk' x y) : OR pk pk' (kwl ws x) (kwl ws y) := by
  unfold kwl
  unfold PR at h
  generalize x.skip = x1 at h
  generalize y.skip = y1 at h
  cases h with
  | done p q => left; simp [hw]
  | char p q kx c t t' hc hp hsp hk hq h =>
    simp only
    cases hcw : isWordC c with
    | false => left; simp [hcw, hw]
    | true =>
      obtain ⟨a, b⟩ := word_rel isWordC (fun _ => word_in) h hcw
      have hp : isWordC p = isWordC q := by
        rcases hp with hp | hp
        · exact hp.2
        · rw [word_id hcw] at hp; cases hp
      rw [hp, a]
      rw [a] at b
      split
      · exact .inl ⟨rfl, rfl⟩
      · split
        · exact .inr ⟨_, _, _, rfl, rfl, b⟩
        · exact .inl ⟨rfl, rfl⟩

theorem keyword_rel {k : Str} (hk : k ≠ []) (h : PR pk pk' x y) : OP pk pk' (keyword k x) (keyword k y) := by
  unfold keyword
  unfold PR at h
  generalize x.skip = x1 at h
  generalize y.skip = y1 at h
  cases h with
  | done p q => left; simp [Ne.symm hk]
  | char p q kx c t t' hc hp hsp hk' hq h =>
    simp only
    cases hcw : isIdC c with
    | false => left; simp [hcw, Ne.symm hk]
    | true =>
      obtain ⟨a, b⟩ := word_rel isIdC (fun _ => id_inWord) h hcw
      have hp : isIdC p = isIdC q := by
        rcases hp with hp | hp
        · exact hp.1
        · rw [hcw] at hp; cases hp
      rw [hp, a]
      rw [a] at b
      split
      · exact .inl ⟨rfl, rfl⟩
      · split
        · rename_i he; rw [he] at b; exact .inr ⟨_, _, rfl, rfl, b⟩
        · exact .inl ⟨rfl, rfl⟩

theorem identP_rel (cfg : Cfg) (h : PR pk pk' x y) : OR pk pk' (identP cfg x) (identP cfg y) := by
  unfold identP
  unfold PR at h
  generalize x.skip = x1 at h
  generalize y.skip = y1 at h
  cases h with
  | done p q => left; simp
  | char p q kx c t t' hc hp hsp hk' hq h =>
    simp only [List.head?_cons, Option.any_some]
    rcases Bool.eq_false_or_eq_true (isIdentStart c) with hs | hs
    case inr => left; simp [hs]
    case inl =>
      simp only [hs, if_true]
      have hcw := isIdC_of_start hs
      obtain ⟨a, b⟩ := word_rel isIdC (fun _ => id_inWord) h hcw
      have hp : isIdC p = isIdC q := by
        rcases hp with hp | hp
        · exact hp.1
        · rw [hcw] at hp; cases hp
      have e : (c :: t).takeWhile isWordC = (c :: t').takeWhile isWordC := by
        cases hw : isWordC c with
        | false => simp [hw]
        | true => exact (word_rel isWordC (fun _ => word_in) h hw).1
      rw [hp, a, e]
      rw [a] at b
      split
      · exact .inl ⟨rfl, rfl⟩
      · split
        · exact .inl ⟨rfl, rfl⟩
        · exact .inr ⟨_, _, _, rfl, rfl, b⟩

theorem alnum_id {c : Char} (h : c.isAlphanum = true) : isIdC c = true := by simp [isIdC, isWordC, h]

theorem underIdent_rel (cfg : Cfg) (h : PR pk pk' x y) : OP pk pk' (underIdent cfg x) (underIdent cfg y) := by
  unfold underIdent
  unfold PR at h
  generalize x.skip = x1 at h
  generalize y.skip = y1 at h
  cases h with
  | done p q => left; simp [startsWith]
  | char p q kx c t t' hc hp hsp hk' hq h =>
    by_cases hu : c = '_'
    · subst hu
      have hp : isIdC p = isIdC q := by
        rcases hp with hp | hp
        · exact hp.1
        · exact absurd hp (by decide)
      obtain ⟨e, _⟩ := word_rel isWordC (fun _ => word_in) h (by decide)
      simp only
      rw [hp, e]
      split
      · exact .inl ⟨rfl, rfl⟩
      split
      · exact .inl ⟨rfl, rfl⟩
      rcases next_rel h (by decide) with ⟨d, u, u', rfl, rfl, hr⟩ | ⟨n1, n2⟩
      · by_cases hd : d = '_'
        · subst hd
          have hs : ∀ w, startsWith ('_' :: '_' :: w) c%"__" = true := by intro w; simp [startsWith]
          rw [if_pos (hs _), if_pos (hs _)]
          simp only [List.drop_succ_cons, List.drop_zero]
          have hz := hr.pos
          unfold PR at hz
          generalize Pos.skip ⟨'_', u⟩ = z at hz
          generalize Pos.skip ⟨'_', u'⟩ = z' at hz
          cases hz with
          | done p q => exact .inl ⟨rfl, rfl⟩
          | char p q kx c t t' hc hp hsp hk' hq h =>
            simp only [List.head?_cons, Option.any_some]
            rcases Bool.eq_false_or_eq_true c.isAlphanum with hs | hs
            case inr => simp only [hs]; exact .inl ⟨rfl, rfl⟩
            case inl =>
              simp only [hs, if_true]
              exact .inr ⟨_, _, rfl, rfl, (word_rel isIdC (fun _ => id_inWord) h (alnum_id hs)).2⟩
        · have hs : ∀ w, ¬ startsWith ('_' :: d :: w) c%"__" = true := by intro w; simp [startsWith, hd]
          rw [if_neg (hs _), if_neg (hs _)]
          exact .inl ⟨rfl, rfl⟩
      · have key : ∀ w : Str, (∀ c u, w = c :: u → inWord c = false) →
            ¬ startsWith ('_' :: w) c%"__" = true := by
          intro w hw
          cases w with
          | nil => simp [startsWith]
          | cons d w =>
            have : d ≠ '_' := by
              rintro rfl
              have := hw _ _ rfl
              revert this; decide
            simp [startsWith, this]
        rw [if_neg (key _ (fun c u h => (n1 c u h).1)), if_neg (key _ (fun c u h => (n2 c u h).1))]
        exact .inl ⟨rfl, rfl⟩
    · left
      have hs : ∀ w, startsWith (c :: w) c%"__" = false := by intro w; simp [startsWith, hu]
      simp [hs]

end

end Pyclib
