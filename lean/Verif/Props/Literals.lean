import Verif.Proof.Literals
import Verif.Props.MacroValue
/-
Property C87: string and floating constants keep their value.
-/
namespace Pyclib
open Spec

theorem skipBlank_paren : ∀ {r : Str} {c : Char}, (lstrip r).head? = some c → c ≠ '(' → ∀ {x : Char} {t : Str}, skipBlank r = x :: t → x ≠ '('
  | [], _, h, _, _, _, _ => by cases h
  | d :: r, c, h, hc, x, t, hs => by
    simp only [lstrip, skipBlank, List.dropWhile_cons] at h hs
    cases hd : isSpaceC d with
    | true =>
      rw [hd, if_pos rfl] at h
      split at hs
      · exact skipBlank_paren (r := r) h hc hs
      · cases hs
        rintro rfl
        revert hd; decide
    | false =>
      rw [hd] at h
      simp only [Bool.false_eq_true, if_false, List.head?_cons, Option.some.injEq] at h
      split at hs
      · rename_i hb
        simp only [Bool.or_eq_true, decide_eq_true_eq] at hb
        rcases hb with rfl | rfl <;> exact absurd hd (by decide)
      · cases hs; exact h ▸ hc

/-- A text that does not begin with a parenthesis has no parameters. -/
theorem paramList_none {r : Str} {c : Char} {s : Str} (h : strip r = c :: s) (hc : c ≠ '(') : paramList r = none := by
  have h1 : (lstrip r).head? = some c := by
    have e : lstrip r = rstrip (lstrip r) ++ ((lstrip r).reverse.takeWhile isSpaceC).reverse := by
      rw [rstrip, ← List.reverse_append, List.takeWhile_append_dropWhile, List.reverse_reverse]
    rw [show rstrip (lstrip r) = c :: s from h] at e
    rw [e]; rfl
  unfold paramList
  split
  · rename_i hs
    exact absurd rfl (skipBlank_paren h1 hc hs)
  · rfl

/-- C87: a macro whose text is a string literal (without backslashes and control characters) gets the text
between the quotes as its value, whatever the tables and the Python process; nothing else is recorded. -/
theorem C87_string (w : Setup) (s : Store DefVal) (n r b : Str) (hb : StrBody b) (hr : strip r = '"' :: (b ++ ['"']))
    (hfn : dget (s.defs .fnmacros) (strip r) = none) :
    w.sem.define s n r = addDef (addDef s .macros n (.macro ('"' :: (b ++ ['"'])))) .values n (.value (.str b)) := by
  show defineIn w.ev s n r = _
  have hp := paramList_none hr (by decide)
  have hv : evIn w.ev s (strip r) = .str b := evalExpr_str hb (by rw [strip_strip, hr])
  simp only [defineIn, parseDefine, hp, hfn, hv]
  rw [hr]

/-- C87: a macro whose text is a decimal floating constant, perhaps with a sign, gets its number as value. -/
theorem C87_float (w : Setup) (s : Store DefVal) (n r : Str) (f : DecFloat) (sg : Option Bool) (hf : f.Ok)
    (hr : strip r = signText sg ++ f.text) (hfn : dget (s.defs .fnmacros) (strip r) = none) :
    w.sem.define s n r = addDef (addDef s .macros n (.macro (signText sg ++ f.text))) .values n
      (.value (.flt (if sg = some true then -f.value else f.value))) := by
  show defineIn w.ev s n r = _
  have hall : (signText sg ++ f.text).all isFltC = true := by
    rw [List.all_append, flt_chars hf]
    rcases sg with _ | _ | _ <;> decide
  obtain ⟨c, t, e, hc⟩ : ∃ c t, signText sg ++ f.text = c :: t ∧ c ≠ '(' := by
    cases he : signText sg ++ f.text with
    | nil =>
      obtain ⟨c, r, e, -⟩ := flt_tail hf
      simp [e] at he
    | cons c t =>
      rw [he, List.all_cons, Bool.and_eq_true] at hall
      exact ⟨c, t, rfl, (isFltC_ne hall.1).2.2.2.2.2.1⟩
  have hp := paramList_none (hr.trans e) hc
  have hv : evIn w.ev s (strip r) = .flt (if sg = some true then -f.value else f.value) :=
    evalExpr_flt hf sg (by rw [strip_strip, hr])
  simp only [defineIn, parseDefine, hp, hfn, hv]
  rw [hr]

/-- C87 in declarations: a string literal as initialiser is recorded with the text between the quotes as value. -/
theorem C87_declaration_string {g : Gram} (tbl : Dict Str DefVal) (py : Dict Str DefVal → Str → PVal) (b : Str) (hb : StrBody b)
    (t : Tk) (ht : t.w = '"' :: (b ++ ['"'])) : ∃ x, ExprTks g [t] x ∧ evalExpr g py tbl x = .str b := by
  refine ⟨t.w, ⟨[t.w], .atom _ _ (.base _ _ (.str _ ?_) (by intro n h; simp at h)), rfl⟩, evalExpr_str hb ?_⟩
  · refine ⟨'"', b.map Spec.Item.chr, .inl rfl, ?_, ?_⟩
    · intro i hi
      obtain ⟨c, hc, rfl⟩ := List.mem_map.1 hi
      obtain ⟨h1, h2, h3⟩ := hb c hc
      refine ⟨h2, ?_, ?_, h3⟩ <;> rintro rfl <;> revert h1 <;> decide
    · have : ∀ l : Str, (l.map Spec.Item.chr).flatMap Spec.Item.text = l := by
        intro l
        induction l with
        | nil => rfl
        | cons c l ih => simp [Spec.Item.text, ih]
      rw [ht, Spec.litText, this]
  · rw [ht]
    exact strip_id (by simp; decide) (by simp [List.getLast?_cons]; decide)

/-- C87 in declarations: a floating constant with at most one digit in front of the point (see
`C87_counterexample_digits`) as initialiser is recorded with its number as value. -/
theorem C87_declaration_float {g : Gram} (tbl : Dict Str DefVal) (py : Dict Str DefVal → Str → PVal) (f : DecFloat) (hf : f.Ok)
    (hl : f.whole.length ≤ 1) (t : Tk) (ht : t.w = f.text) : ∃ x, ExprTks g [t] x ∧ evalExpr g py tbl x = .flt f.value := by
  refine ⟨t.w, ⟨[t.w], .atom _ _ (.base _ _ (.float _ ?_) (by intro n h; simp at h)), rfl⟩, ?_⟩
  · rw [ht]
    obtain ⟨h1, h2, h3, h4, h5⟩ := hf
    refine ⟨f.whole ++ (match f.frac with | none => [] | some ds => '.' :: ds),
      match f.expo with | none => [] | some (c, s, ds) => c :: (signText s ++ ds), rfl, ?_, ?_⟩
    · have hw : f.whole = [] ∨ ∃ d, f.whole = [d] ∧ d.isDigit = true := by
        cases hw : f.whole with
        | nil => exact .inl rfl
        | cons d ds =>
          rw [hw] at hl h1
          simp only [List.length_cons] at hl
          obtain rfl : ds = [] := List.length_eq_zero_iff.1 (by omega)
          exact .inr ⟨d, rfl, by simpa using h1⟩
      cases hfr : f.frac with
      | some ds =>
        simp only [DecFloat.digits, hfr, Option.getD_some] at h2 h3
        rcases hw with hw | ⟨d, hw, hd⟩
        · refine .inr (.inl ⟨ds, by rw [hw]; rfl, ?_, h2⟩)
          simpa [hw] using h3
        · exact .inl ⟨d, ds, by rw [hw]; rfl, hd, h2⟩
      | none =>
        rcases hw with hw | ⟨d, hw, hd⟩
        · simp [DecFloat.digits, hfr, hw] at h3
        · refine .inr (.inr ⟨d, by rw [hw]; rfl, hd, ?_⟩)
          cases he : f.expo with
          | none => simp [hfr, he] at h4
          | some e => simp
    · cases he : f.expo with
      | none => exact .inl rfl
      | some e =>
        obtain ⟨c, s, ds⟩ := e
        obtain ⟨a1, a2, a3⟩ := h5 c s ds he
        exact .inr ⟨c, signText s, ds, by simp, a1, by rcases s with _ | _ | _ <;> simp [signText], a2, a3⟩
  · have := evalExpr_flt (g := g) (py := py) (tbl := tbl) hf none (s := t.w) (by
      have hall := List.all_eq_true.1 (flt_chars hf)
      have hsp : ∀ c, isFltC c = true → isSpaceC c = false := by
        intro c hc
        cases hs : isSpaceC c with
        | false => rfl
        | true =>
          exfalso
          simp only [isFltC, Bool.or_eq_true, decide_eq_true_eq, or_assoc] at hc
          rcases hc with hc | rfl | rfl | rfl | rfl | rfl
          · simp only [Char.isDigit, Bool.and_eq_true, decide_eq_true_eq, ge_iff_le, UInt32.le_iff_toNat_le] at hc
            have h1 : 48 ≤ c.toNat := hc.1
            simp only [isSpaceC, Bool.or_eq_true, decide_eq_true_eq] at hs
            have hn : ∀ d : Char, c = d → c.toNat = d.toNat := fun d h => by rw [h]
            have a1 : ' '.toNat = 32 ∧ '\t'.toNat = 9 ∧ '\n'.toNat = 10 ∧ '\r'.toNat = 13 := by decide
            rcases hs with ((((((((h | h) | h) | h) | h) | h) | h) | h) | h) | h
            all_goals first
              | omega
              | (have := hn _ h; omega)
          all_goals revert hs; decide
      rw [ht, strip_id]
      · rfl
      · exact fun c hc => hsp c (hall c (List.mem_of_mem_head? hc))
      · exact fun c hc => hsp c (hall c (List.mem_of_getLast? hc)))
    simpa using this

/-- The constant `12.5e-3`. -/
def exFloat : DecFloat := ⟨c%"12", some c%"5", some ('e', some true, c%"3")⟩

/-- The hypotheses of C87 hold for `#define PATH "a b/c(d).h"` and `#define RATE -12.5e-3`. -/
theorem C87_example : StrBody c%"a b/c(d).h" ∧ strip c%" \"a b/c(d).h\" " = '"' :: (c%"a b/c(d).h" ++ ['"']) ∧
    exFloat.Ok ∧ strip c%" -12.5e-3" = signText (some true) ++ exFloat.text ∧ exFloat.value = 1 / 80 ∧
    fileGet c%"#define PATH \"a b/c(d).h\"\n#define RATE -12.5e-3\nchar *p = PATH;\n" .values c%"p" =
      some (some (.value (.str c%"a b/c(d).h"))) := by
  refine ⟨by unfold StrBody; decide, by decide, ⟨by decide, by decide, by decide, by decide, ?_⟩, by decide, by decide +kernel, by rfl⟩
  intro c s ds h
  cases h
  exact ⟨.inl rfl, by decide, by decide⟩

/-- What C87 says fails for initialisers with two digits in front of the point: `12.5` is read as the numbers
`12` and `5` with a point between them, and has no value; with an exponent, the declaration is not recognised at all. -/
theorem C87_counterexample_digits : fileGet c%"double x = 12.5;\n" .values c%"x" = some (some (.value .none)) ∧
    fileGet c%"double x = 12e3;\n" .variables c%"x" = some none := ⟨by rfl, by rfl⟩

/-- It fails for suffixes: `1.5f` is left to Python as it stands (a syntax error). -/
theorem C87_counterexample_suffix (py : Dict Str DefVal → Str → PVal) (tbl : Dict Str DefVal) :
    evalExpr exGram py tbl c%"1.5f" = py tbl c%"1.5f" := by rfl

/-- The value of a character constant is a string instead of the number of the character. -/
theorem C87_counterexample_char : fileGet c%"#define X 'a'\n" .values c%"X" = some (some (.value (.str c%"a"))) := by rfl

/-- The value recorded for a name. -/
def fileVal (text n : Str) : Option PVal :=
  match fileGet text .values n with
  | some (some (.value v)) => some v
  | _ => none

/-- An enumerator whose value is computed by a division is a float, and so are the following ones. -/
theorem C87_counterexample_enum : fileVal c%"enum { A = 6 / 2, B };\n" c%"A" = some (.flt 3) ∧
    fileVal c%"enum { A = 6 / 2, B };\n" c%"B" = some (.flt 4) := ⟨by decide +kernel, by decide +kernel⟩

end Pyclib
