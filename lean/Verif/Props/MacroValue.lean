import Verif.Props.File
import Verif.Props.Eval
/-! C65: the values of object-like macros. -/
namespace Pyclib
open Spec

theorem strip_parts (r : Str) : ∃ a b, r = a ++ (strip r ++ b) ∧ a.all isSpaceC = true ∧ b.all isSpaceC = true := by
  have h1 : ∀ l : Str, l = l.takeWhile isSpaceC ++ l.dropWhile isSpaceC := fun l => (List.takeWhile_append_dropWhile).symm
  have h2 : ∀ l : Str, (l.takeWhile isSpaceC).all isSpaceC = true := fun l => by
    rw [List.all_eq_true]
    intro c hc
    induction l with
    | nil => cases hc
    | cons d l ih =>
      rw [List.takeWhile_cons] at hc
      split at hc
      · rcases List.mem_cons.1 hc with rfl | hc
        · assumption
        · exact ih hc
      · cases hc
  refine ⟨r.takeWhile isSpaceC, ((lstrip r).reverse.takeWhile isSpaceC).reverse, ?_, h2 _, ?_⟩
  · have e : lstrip r = strip r ++ ((lstrip r).reverse.takeWhile isSpaceC).reverse := by
      unfold strip rstrip
      rw [← List.reverse_append, List.takeWhile_append_dropWhile, List.reverse_reverse]
    rw [← e]
    exact h1 r
  · rw [List.all_reverse]; exact h2 _

theorem skipBlank_space : ∀ {b : Str}, b.all isSpaceC = true → skipBlank b = [] ∨ ∃ c t, skipBlank b = c :: t ∧ isSpaceC c = true
  | [], _ => .inl rfl
  | c :: b, h => by
    simp only [List.all_cons, Bool.and_eq_true] at h
    unfold skipBlank
    rw [List.dropWhile_cons]
    split
    · exact skipBlank_space h.2
    · exact .inr ⟨c, b, rfl, h.1⟩

theorem skipBlank_white : ∀ {ws : Str}, ws.all isWhite = true → (∀ c ∈ ws, c ≠ '\n' ∧ c ≠ '\r') → ∀ (c : Char) (t : Str),
    isWhite c = false → skipBlank (ws ++ c :: t) = c :: t
  | [], _, _, c, t, hc => by
    unfold skipBlank
    rw [List.nil_append, List.dropWhile_cons, if_neg]
    intro h
    simp only [Bool.or_eq_true, decide_eq_true_eq] at h
    rcases h with rfl | rfl <;> cases hc
  | d :: ws, h, hn, c, t, hc => by
    simp only [List.all_cons, Bool.and_eq_true] at h
    have hd : (d = ' ' ∨ d = '\t') := by
      have h1 := h.1
      have h2 := hn d (by simp)
      simp only [isWhite, Bool.or_eq_true, decide_eq_true_eq] at h1
      rcases h1 with ((h1 | h1) | h1) | h1
      · exact .inl h1
      · exact absurd h1 h2.1
      · exact .inr h1
      · exact absurd h1 h2.2
    have := skipBlank_white h.2 (fun c hc => hn c (by simp [hc])) c t hc
    unfold skipBlank at this ⊢
    rw [List.cons_append, List.dropWhile_cons, if_pos (by simpa using hd)]
    exact this

/-- The first token of a text. -/
theorem lay_first {pack : Nat → Option Nat} {p : Char} {text : Str} {tks : List Tk} (h : Lay ⟨[], pack⟩ p text tks)
    (hn : ∀ c ∈ text, c ≠ '\n' ∧ c ≠ '\r') (b : Str) :
    (tks = [] ∧ text = []) ∨ ∃ c w rest t tks', tks = t :: tks' ∧ t.w = c :: w ∧
      skipBlank (text ++ b) = c :: (w ++ (rest ++ b)) ∧ isWhite c = false ∧
      Lay ⟨[], pack⟩ ((c :: w).getLastD ' ') rest tks' ∧ ∀ c ∈ rest, c ≠ '\n' ∧ c ≠ '\r' := by
  cases h with
  | nil => exact .inl ⟨rfl, rfl⟩
  | cons _ ws c w rest ts pk hw hc _ _ hl =>
    refine .inr ⟨c, w, rest, _, _, rfl, rfl, ?_, hc, hl, fun c hc => hn c (by simp [hc])⟩
    have := skipBlank_white hw (fun c hc => hn c (by simp [hc])) c (w ++ (rest ++ b)) hc
    simpa using this

theorem ke_second {x y : Str} (hx : ∀ c, x.head? = some c → isIdentStart c = true) : ∀ (e : KE) {g : Gram} (R t : List Str), e.Ok g →
    e.toks ++ R = x :: y :: t → (e = .id x ∧ R = y :: t) ∨ ∃ o : KBin, y = o.text
  | .lit v s, g, R, t, h, e => by
    obtain ⟨c, w, e1, hc⟩ := intTok_start (lit_intTok h.1 h.2.1)
    simp only [KE.toks, List.cons_append, List.nil_append, List.cons.injEq] at e
    have := identStart_digit (hx c (by rw [← e.1, e1]; rfl))
    rw [hc] at this; cases this
  | .id w, g, R, t, h, e => by
    simp only [KE.toks, List.cons_append, List.nil_append, List.cons.injEq] at e
    exact .inl ⟨by rw [e.1], e.2⟩
  | .par e', g, R, t, h, e => by
    simp only [KE.toks, List.cons_append, List.cons.injEq] at e
    have := hx '(' (by rw [← e.1]; rfl)
    exact absurd this (by decide)
  | .un o e', g, R, t, h, e => by
    simp only [KE.toks, List.cons_append, List.cons.injEq] at e
    rw [← e.1] at hx
    revert hx
    cases o <;> simp only [KUn.text] <;> intro hx
    · exact absurd (hx '+' rfl) (by decide)
    · exact absurd (hx '-' rfl) (by decide)
    · exact absurd (hx '~' rfl) (by decide)
  | .bin o a b', g, R, t, h, e => by
    simp only [KE.toks, List.append_assoc, List.cons_append] at e
    rcases ke_second hx a _ _ h.1 e with ⟨_, e2⟩ | h2
    · rw [List.cons.injEq] at e2
      exact .inr ⟨o, e2.1.symm⟩
    · exact .inr h2

/-- No expression begins with a name in parentheses. -/
theorem ke_noCast {x : Str} (hx : ∀ c, x.head? = some c → isIdentStart c = true) : ∀ (e : KE) {g : Gram} (R t : List Str), e.Ok g →
    e.toks ++ R = c%"(" :: x :: c%")" :: t → False
  | .lit v s, g, R, t, h, e => by
    obtain ⟨c, w, e1, hc⟩ := intTok_start (lit_intTok h.1 h.2.1)
    simp only [KE.toks, List.cons_append, List.nil_append, List.cons.injEq] at e
    rw [e1] at e
    simp only [List.cons.injEq] at e
    rw [e.1.1] at hc; revert hc; decide
  | .id w, g, R, t, h, e => by
    have := identOk_word h.1
    simp only [KE.toks, List.cons_append, List.nil_append, List.cons.injEq] at e
    rw [e.1] at this
    revert this; simp [wordOk, isWordC]
  | .par e', g, R, t, h, e => by
    simp only [KE.toks, List.cons_append, List.append_assoc, List.cons.injEq, true_and] at e
    rcases ke_second hx e' _ _ h.1 e with ⟨e1, _⟩ | ⟨o, ho⟩
    · exact h.2 _ e1
    · revert ho; cases o <;> decide
  | .un o e', g, R, t, h, e => by
    simp only [KE.toks, List.cons_append, List.cons.injEq] at e
    have := e.1
    revert this; cases o <;> decide
  | .bin o a b', g, R, t, h, e => by
    simp only [KE.toks, List.append_assoc, List.cons_append] at e
    exact ke_noCast hx a _ _ h.1 e

theorem stok_mem {g : Gram} {ws outs : List Str} (h : All2 (STok g) ws outs) : ∀ w ∈ ws, ∃ v, STok g w v := by
  induction h with
  | nil => intro w hw; cases hw
  | cons a b as bs h hs ih =>
    intro w hw
    rcases List.mem_cons.1 hw with rfl | hw
    · exact ⟨_, h⟩
    · exact ih w hw

theorem stok_lp {g : Gram} {w v : Str} (h : STok g ('(' :: w) v) : w = [] := by
  cases h with
  | num _ h => obtain ⟨c, w', e, hc⟩ := intTok_start h; cases e; exact absurd hc (by decide)
  | id h _ => have := (identOk_word h).1; revert this; simp [wordOk, isWordC]
  | sym h => simp only [kBins, List.cons_append, List.nil_append, List.mem_cons, List.cons.injEq, List.not_mem_nil] at h; simpa using h

theorem stok_rp {g : Gram} {w v : Str} (h : STok g (')' :: w) v) : w = [] := by
  cases h with
  | num _ h => obtain ⟨c, w', e, hc⟩ := intTok_start h; cases e; exact absurd hc (by decide)
  | id h _ => have := (identOk_word h).1; revert this; simp [wordOk, isWordC]
  | sym h => simp only [kBins, List.cons_append, List.nil_append, List.mem_cons, List.cons.injEq, List.not_mem_nil] at h; simpa using h

theorem stok_comma {g : Gram} {w v : Str} (h : STok g (',' :: w) v) : False := by
  cases h with
  | num _ h => obtain ⟨c, w', e, hc⟩ := intTok_start h; cases e; revert hc; decide
  | id h _ => have := (identOk_word h).1; revert this; simp [wordOk, isWordC]
  | sym h => simp [kBins] at h

theorem stok_ident {g : Gram} {c : Char} {w v : Str} (h : STok g (c :: w) v) (hc : isIdentStart c = true) :
    w.all isWordC = true := by
  cases h with
  | num _ h => obtain ⟨d, w', e, hd⟩ := intTok_start h; cases e; rw [identStart_digit hc] at hd; cases hd
  | id h _ =>
    have := (identOk_word h).1
    simp only [wordOk, Bool.and_eq_true, List.all_cons] at this
    exact this.2.2
  | sym h =>
    exfalso
    have key : ∀ x ∈ kBins ++ [c%"~", c%"(", c%")"], ∀ d, x.head? = some d → isIdentStart d = false := by decide
    rw [key _ h c rfl] at hc; cases hc

theorem skipBlank_pre : ∀ {a : Str}, a.all isSpaceC = true → ∀ s, skipBlank (a ++ s) = skipBlank s ∨
    ∃ c t, skipBlank (a ++ s) = c :: t ∧ isSpaceC c = true
  | [], _, s => .inl rfl
  | c :: a, h, s => by
    simp only [List.all_cons, Bool.and_eq_true] at h
    have ih := skipBlank_pre h.2 s
    unfold skipBlank at ih ⊢
    rw [List.cons_append, List.dropWhile_cons]
    split
    · exact ih
    · exact .inr ⟨c, a ++ s, rfl, h.1⟩

theorem paramList_head {s t : Str} {c : Char} (h : skipBlank s = c :: t) (hc : c ≠ '(') : paramList s = none := by
  unfold paramList
  rw [h]
  split
  · rename_i e; cases e; exact absurd rfl hc
  · rfl

theorem moreParams_head {n : Nat} {s t : Str} {c : Char} (h : skipBlank s = c :: t) (h1 : c ≠ ')') (h2 : c ≠ ',') :
    moreParams n s = none := by
  cases n with
  | zero => rfl
  | succ n =>
    unfold moreParams
    rw [h]
    split
    · rename_i e; cases e; exact absurd rfl h1
    · rename_i e; cases e; exact absurd rfl h2
    · rfl

theorem takeWhile_word {w s : Str} (hw : w.all isWordC = true) (hs : ∀ c, s.head? = some c → isWordC c = false) :
    (w ++ s).takeWhile isWordC = w ∧ (w ++ s).dropWhile isWordC = s := by
  induction w with
  | nil =>
    cases s with
    | nil => exact ⟨rfl, rfl⟩
    | cons c s => simp [hs c rfl]
  | cons c w ih =>
    simp only [List.all_cons, Bool.and_eq_true] at hw
    simp [hw.1, ih hw.2]

/-- The text of an expression is not taken for a list of parameters. -/
theorem paramList_expr {g : Gram} {env : Str → Option Int} {e : KE} {r : Str} (ht : TextOf (strip r) e.toks) (hok : e.Ok g)
    (hf : e.Frag env) : paramList r = none := by
  obtain ⟨⟨tks, h1, h2⟩, hn⟩ := ht
  obtain ⟨a, b, hr, ha, hb⟩ := strip_parts r
  have hst := stok_mem (toks_stok env e hok hf)
  rw [← h1] at hst
  have hsp : ∀ c, isSpaceC c = true → c ≠ '(' ∧ c ≠ ')' ∧ c ≠ ',' := by
    rintro c hc
    refine ⟨?_, ?_, ?_⟩ <;> rintro rfl <;> revert hc <;> decide
  generalize strip r = text at h2 hn hr
  subst hr
  rcases skipBlank_pre ha (text ++ b) with e0 | ⟨c, t, e0, hc⟩
  swap
  · exact paramList_head e0 (hsp c hc).1
  rcases lay_first h2 hn b with ⟨hnil, ht⟩ | ⟨c, w, rest, t, tks', rfl, htw, e1, hc, hl, hn'⟩
  · obtain ⟨t, ts, et, _⟩ := toks_start env e hok hf
    rw [hnil, et] at h1
    cases h1
  by_cases hlp : c = '('
  swap
  · exact paramList_head (e0.trans e1) hlp
  subst hlp
  obtain ⟨v, hv⟩ := hst t.w (by simp)
  rw [htw] at hv
  have hw := stok_lp hv
  subst hw
  unfold paramList
  rw [e0, e1]
  simp only [List.nil_append]
  rcases lay_first hl hn' b with ⟨hnil, ht⟩ | ⟨c2, w2, rest2, t2, tks2, rfl, htw2, e2, hc2, hl2, hn2⟩
  · subst ht
    unfold identTok
    rcases skipBlank_space hb with e3 | ⟨c3, t3, e3, hc3⟩
    · simp [e3]
    · rw [List.nil_append, e3]
      have : isIdentStart c3 = false := by
        have := space_not_word hc3
        cases h : isIdentStart c3 with
        | false => rfl
        | true =>
          simp only [isIdentStart, Bool.or_eq_true, decide_eq_true_eq] at h
          simp only [isWordC, Char.isAlphanum, Bool.or_eq_false_iff] at this
          rcases h with h | h
          · rw [h] at this; exact absurd this.1.1 (by simp)
          · simp [h] at this
      simp [this]
  · unfold identTok
    rw [e2]
    dsimp only
    cases hid : isIdentStart c2 with
    | false => simp
    | true =>
      obtain ⟨v2, hv2⟩ := hst t2.w (by simp)
      rw [htw2] at hv2
      have hw2 := stok_ident hv2 hid
      have hne : ∀ c, (rest2 ++ b).head? = some c → isWordC c = false := by
        intro c hc
        cases rest2 with
        | nil =>
          cases b with
          | nil => cases hc
          | cons d b =>
            cases hc
            simp only [List.all_cons, Bool.and_eq_true] at hb
            exact space_not_word hb.1
        | cons d rest2 =>
          obtain rfl : d = c := by simpa using hc
          have hap := lay_head rfl hl2 (c := d) rfl
          have hwd : wordOk (c2 :: w2) = true := by
            have : isWordC c2 = true := by
              simp only [isIdentStart, Bool.or_eq_true, decide_eq_true_eq] at hid
              simp only [isWordC, Char.isAlphanum, Bool.or_eq_true, decide_eq_true_eq]
              rcases hid with h | h
              · exact .inl (.inl h)
              · exact .inr h
            simp [wordOk, this]
            simpa using hw2
          have := (apart_word (word_last hwd ' ') hap).1
          cases hd : isWordC d with
          | false => rfl
          | true => rw [isIdC_of_word hd] at this; cases this
      rw [(takeWhile_word hw2 hne).1, (takeWhile_word hw2 hne).2]
      simp only [if_true]
      have hnone : ∀ n, moreParams n (rest2 ++ b) = none := by
        intro n
        rcases lay_first hl2 hn2 b with ⟨hnil, ht⟩ | ⟨c3, w3, rest3, t3, tks3, rfl, htw3, e3, hc3, hl3, hn3⟩
        · subst ht
          rw [List.nil_append]
          rcases skipBlank_space hb with e3 | ⟨c3, t3, e3, hc3⟩
          · cases n with
            | zero => rfl
            | succ n => unfold moreParams; rw [e3]
          · exact moreParams_head e3 (hsp c3 hc3).2.1 (hsp c3 hc3).2.2
        · obtain ⟨v3, hv3⟩ := hst t3.w (by simp)
          rw [htw3] at hv3
          refine moreParams_head e3 ?_ ?_
          · rintro rfl
            have := stok_rp hv3
            subst this
            refine ke_noCast (x := c2 :: w2) (by intro c hc; cases hc; exact hid) e [] (tks3.map Tk.w) hok ?_
            rw [List.append_nil, ← h1]
            simp [htw, htw2, htw3]
          · rintro rfl
            exact stok_comma hv3
      rw [hnone]
      rfl

/-- C65 (partial: the expressions of C62): an object-like macro whose text is a constant expression in C
syntax, whatever the blanks, gets the value of that expression, with the names that have values when it is
defined; nothing else is recorded. -/
theorem C65_value_partial (w : Setup) (hg : gramOk w.castGram = true) (s : Store DefVal) (n r : Str) (e : KE) (v : Int)
    (ht : TextOf (strip r) e.toks) (hok : e.Ok w.castGram) (hgr : e.Grammar) (hf : e.Frag (intsOf (s.defs .values)))
    (hv : e.value (intsOf (s.defs .values)) = some v) (hfn : dget (s.defs .fnmacros) (strip r) = none) :
    w.sem.define s n r = addDef (addDef s .macros n (.macro (strip r))) .values n (.value (.int v)) := by
  show defineIn w.ev s n r = _
  have hp := paramList_expr ht hok hf
  have hv' : evIn w.ev s (strip r) = .int v :=
    C62_value_partial hg (s.defs .values) w.py e (strip r) v (by rw [strip_strip]; exact ht) hok hgr hf hv
  simp only [defineIn, parseDefine, hp, hfn, hv']

/-- The hypotheses of `C65_value_partial` hold for `#define X  -N+(1<<0x4UL)%10U |~ FLAG_A`. -/
example : TextOf (strip c%" -N+(1<<0x4UL)%10U |~ FLAG_A ") exKE.toks ∧ exKE.Ok exSetup.castGram ∧ exKE.Grammar ∧
    exKE.Frag (intsOf exTbl) ∧ exKE.value (intsOf exTbl) = some (-1) ∧
    dget (((exSetup.sem.define ⟨fun k => if k = .values then exTbl else [], [], none⟩ c%"X" c%" -N+(1<<0x4UL)%10U |~ FLAG_A ")).defs
      .values) c%"X" = some (.value (.int (-1))) := by
  refine ⟨⟨⟨tksOf ⟨[], fun _ => none⟩ exLay, by rfl,
    lay_textOf ⟨[], fun _ => none⟩ exLay ' ' (by decide)⟩, by decide⟩, ?_, ?_, ?_, by decide, by rfl⟩
  · simp only [exKE, KE.Ok, litOk]
    refine ⟨⟨⟨by decide, by decide, by decide⟩, ⟨⟨⟨.inl (by decide), by decide, by decide, by decide⟩,
      ⟨.inr ⟨'x', c%"4", by decide⟩, by decide, by decide, by decide⟩⟩, by simp⟩, ⟨.inl (by decide), by decide, by decide, by decide⟩⟩,
      ⟨by decide, by decide, by decide⟩⟩
  · simp [exKE, KE.Grammar, KE.level, KBin.level]
  · have h : ∀ x, some (16 : Int) = some x → 0 ≤ x := by
      intro x h
      cases h
      decide
    have h' : ∀ x, some (10 : Int) = some x → 0 ≤ x := by
      intro x h
      cases h
      decide
    refine ⟨by decide, ⟨by decide, trivial, ⟨by decide, ⟨by decide, trivial, trivial, by simp, by simp⟩, trivial, fun _ => ⟨h, h'⟩, by simp⟩, by simp, by simp⟩,
      trivial, by simp, fun _ => ⟨rfl, rfl⟩⟩

/-- C65 fails for a macro that is defined before the macro it mentions: in C, `B` is 1 wherever it is used
after both definitions; here it has no value. -/
theorem C65_counterexample_order : fileGet c%"#define B A\n#define A 1\n" .values c%"B" = some (some (.value .none)) ∧
    fileGet c%"#define A 1\n#define B A\n" .values c%"B" = some (some (.value (.int 1))) := ⟨by rfl, by rfl⟩

/-- C65 fails for a macro that mentions one that is defined anew: in C, `B` is 5 at the end. -/
theorem C65_counterexample_redefine :
    fileGet c%"#define A 1\n#define B A\n#undef A\n#define A 5\n" .values c%"B" = some (some (.value (.int 1))) := by rfl

/-- C65 fails for a macro that mentions an enumerator of the same file, because all macros of a file are
processed before its declarations; with the enumerator alone in parentheses it even becomes a function-like
macro. -/
theorem C65_counterexample_enum :
    fileGet c%"enum { M = 3 };\n#define N M+1\n" .values c%"N" = some (some (.value .none)) ∧
    fileGet c%"enum { M = 3 };\n#define N (M)\n" .values c%"N" = some none ∧
    fileGet c%"enum { M = 3 };\n#define N (M)\n" .fnmacros c%"N" = some (some (.fnmacro ([], []))) := ⟨by rfl, by rfl, by rfl⟩

end Pyclib
