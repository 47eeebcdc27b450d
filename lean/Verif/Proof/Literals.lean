import Verif.Spec.Literals
import Verif.Proof.EvalText
import Verif.Proof.GrammarSuf
import Mathlib.Tactic.FieldSimp
import Mathlib.Tactic.Ring
import Mathlib.Data.Rat.Defs
import Mathlib.Algebra.Order.Ring.Rat
/-
Evaluation of string and floating literals.
-/
namespace Pyclib
open Spec

/-! ### Strings -/

theorem qBody_str : ∀ {b : Str}, StrBody b → qBody '"' (b ++ ['"']) = (b, ['"'])
  | [], _ => by simp [qBody]
  | c :: b, h => by
    obtain ⟨h0, h1, h2⟩ := h c (by simp)
    have ih := qBody_str (b := b) (fun d hd => h d (by simp [hd]))
    have hn : c ≠ '\n' ∧ c ≠ '\r' := by constructor <;> rintro rfl <;> revert h0 <;> decide
    cases b with
    | nil => simp [qBody, h1, h2, hn]
    | cons d b =>
      simp only [List.cons_append] at ih ⊢
      rw [qBody.eq_def]
      simp [h1, h2, hn, ih]

theorem quotedTok_str {b : Str} (h : StrBody b) (p : Char) :
    quotedTok ⟨p, '"' :: (b ++ ['"'])⟩ = some ('"' :: (b ++ ['"']), ⟨'"', []⟩) := by
  simp [quotedTok, skip_plain (show isWhite '"' = false by decide), matchQuoted, qBody_str h]

theorem evalScan_str {g : Gram} {b : Str} (h : StrBody b) (n : Nat) (p : Char) :
    evalScan g (n + 1) ⟨p, '"' :: (b ++ ['"'])⟩ = '"' :: (b ++ ['"']) := by
  simp only [evalScan, show isWhite '"' = false by decide, Bool.false_eq_true, if_false, quotedTok_str h, evalScan_nil,
    List.append_nil]

/-- A text without blanks at its ends stays as it is. -/
theorem kTrim_id {s : Str} (h1 : ∀ c, s.head? = some c → isKBlank c = false) (h2 : ∀ c, s.getLast? = some c → isKBlank c = false) :
    kTrim s = s := by
  have e1 : s.dropWhile isKBlank = s := by
    cases s with
    | nil => rfl
    | cons c s => simp [h1 c rfl]
  have e2 : s.reverse.dropWhile isKBlank = s.reverse := by
    cases hs : s.reverse with
    | nil => rfl
    | cons c r =>
      have := h2 c (by rw [← List.head?_reverse, hs]; rfl)
      simp [this]
  rw [kTrim, e1, e2, List.reverse_reverse]

theorem kTrim_str (b : Str) : kTrim ('"' :: (b ++ ['"'])) = '"' :: (b ++ ['"']) :=
  kTrim_id (by simp; decide) (by simp [List.getLast?_cons]; decide)

theorem pyLit_str {b : Str} (h : StrBody b) (n : Nat) : pyLit (n + 1) ('"' :: (b ++ ['"'])) = some (.str b) := by
  have e1 : (b ++ ['"']).takeWhile (· ≠ '"') = b := by
    rw [List.takeWhile_append_of_pos (by intro c hc; simpa using (h c hc).2.1)]
    simp
  have e2 : (b ++ ['"']).dropWhile (· ≠ '"') = ['"'] := by
    rw [List.dropWhile_append_of_pos (by intro c hc; simpa using (h c hc).2.1)]
    simp
  have e3 : b.all (fun c => decide (' ' ≤ c) && decide (c ≠ '\\')) = true := by
    rw [List.all_eq_true]
    intro c hc
    simp [(h c hc).1, (h c hc).2.2]
  rw [pyLit, kTrim_str]
  have e4 : pyStrLit ('"' :: (b ++ ['"'])) = some b := by
    show (if (true && decide ((b ++ ['"']).dropWhile (· ≠ '"') = ['"']) &&
      ((b ++ ['"']).takeWhile (· ≠ '"')).all (fun c => decide (' ' ≤ c) && decide (c ≠ '\\'))) = true then
        some ((b ++ ['"']).takeWhile (· ≠ '"')) else none) = some b
    rw [e1, e2, e3]
    simp
  show (match pyStrLit ('"' :: (b ++ ['"'])) with
      | some t => some (PVal.str t)
      | none => (fltLit ('"' :: (b ++ ['"']))).map PVal.flt) = some (PVal.str b)
  rw [e4]

theorem kTok_str (b : Str) (n : Nat) : kTok (n + 1) ('"' :: b) = none := by
  simp only [kTok]
  simp [show isIdentStart '"' = false by decide]

theorem evalExpr_str {g : Gram} {py : Dict Str DefVal → Str → PVal} {tbl : Dict Str DefVal} {b s : Str} (h : StrBody b)
    (hs : strip s = '"' :: (b ++ ['"'])) : evalExpr g py tbl s = .str b := by
  have e : evalText g s = '"' :: (b ++ ['"']) := by rw [evalText, hs, evalScan_str h]
  simp [evalExpr, e, pyEvalK, kTok_str, pyEvalF, pyLit_str h]

/-! ### Floats -/

/-- Characters of floating constants. -/
def isFltC (c : Char) : Bool := c.isDigit || c = '.' || c = 'e' || c = 'E' || c = '+' || c = '-'

theorem isFltC_ne {c : Char} (h : isFltC c = true) : isWhite c = false ∧ isUL c = false ∧ isKBlank c = false ∧
    c ≠ '"' ∧ c ≠ '\'' ∧ c ≠ '(' ∧ c ≠ 'x' ∧ c ≠ 'X' := by
  have key : ∀ d : Char, isFltC d = false → c ≠ d := by rintro d hd rfl; rw [h] at hd; cases hd
  have h1 : isWhite c = false := by
    cases hw : isWhite c with
    | false => rfl
    | true =>
      have : c = ' ' ∨ c = '\t' ∨ c = '\n' ∨ c = '\r' := by
        simp only [isWhite, Bool.or_eq_true, decide_eq_true_eq] at hw
        grind
      rcases this with rfl | rfl | rfl | rfl <;> revert h <;> decide
  refine ⟨h1, ?_, ?_, key _ (by decide), key _ (by decide), key _ (by decide), key _ (by decide), key _ (by decide)⟩
  · simp [isUL, key 'U' (by decide), key 'L' (by decide)]
  · simp [isKBlank, key ' ' (by decide), key '\t' (by decide)]

theorem decTok_suf {s a b r : Str} (h : decTok s = some (a, b, r)) : b.all isUL = true := by
  unfold decTok at h
  split at h
  · split at h
    · cases h; exact List.all_takeWhile
    · cases h
  · cases h

theorem hexTok_suf {s a b r : Str} (h : hexTok s = some (a, b, r)) : b.all isUL = true := by
  unfold hexTok at h
  split at h
  · split at h
    · cases h; exact List.all_takeWhile
    · cases h
  · cases h

theorem floatTok_suf {s a b r : Str} (h : floatTok s = some (a, b, r)) : b = [] := by
  unfold floatTok at h
  split at h
  · cases h
  · split at h
    · cases h; rfl
    · split at h
      · cases h; rfl
      · cases h

theorem numberTok_app {s a b r : Str} (h : numberTok s = some (a, b, r)) : s = a ++ b ++ r ∧ a ++ b ≠ [] ∧ b.all isUL = true := by
  unfold numberTok integerTok at h
  cases h1 : floatTok s with
  | some p =>
    rw [h1] at h; cases h
    exact ⟨(app_floatTok h1).1, (app_floatTok h1).2, by simp [floatTok_suf h1]⟩
  | none =>
    rw [h1, Option.none_or] at h
    cases h2 : hexTok s with
    | some p =>
      rw [h2] at h; cases h
      exact ⟨(app_hexTok h2).1, (app_hexTok h2).2, hexTok_suf h2⟩
    | none =>
      rw [h2, Option.none_or] at h
      exact ⟨(app_decTok h).1, (app_decTok h).2, decTok_suf h⟩

/-- The scan copies texts of such characters. -/
theorem evalScan_flt {g : Gram} : ∀ (n : Nat) (s : Str) (p : Char), s.length < n → s.all isFltC = true → evalScan g n ⟨p, s⟩ = s := by
  intro n
  induction n with
  | zero => intro s p h; omega
  | succ n ih =>
    intro s p hl hs
    cases s with
    | nil => exact evalScan_nil _ _
    | cons c s =>
      have hc : isFltC c = true := by simp only [List.all_cons, Bool.and_eq_true] at hs; exact hs.1
      have hs' : s.all isFltC = true := by simp only [List.all_cons, Bool.and_eq_true] at hs; exact hs.2
      obtain ⟨hw, hu, hb, q1, q2, q3, q4, q5⟩ := isFltC_ne hc
      simp only [List.length_cons] at hl
      cases hn : numberTok (c :: s) with
      | none =>
        rw [evalScan_step hw ⟨q1, q2⟩ hn (evalCast_char hw q3 p s), ih s c (by omega) hs']
      | some t =>
        obtain ⟨v, suf, r⟩ := t
        obtain ⟨e, he, hsuf⟩ := numberTok_app hn
        have hall : (v ++ suf ++ r).all isFltC = true := by rw [← e]; exact hs
        simp only [List.all_append, Bool.and_eq_true] at hall
        have h0 : suf = [] := by
          cases suf with
          | nil => rfl
          | cons d suf =>
            have h1 := hall.1.2
            simp only [List.all_cons, Bool.and_eq_true] at h1 hsuf
            have := (isFltC_ne h1.1).2.1
            rw [hsuf.1] at this; cases this
        subst h0
        have hlen : r.length < n := by
          have := congrArg List.length e
          simp only [List.length_cons, List.length_append, List.length_nil] at this
          have : v ≠ [] := by simpa using he
          have := List.length_pos_of_ne_nil this
          omega
        rw [evalScan_num hw ⟨q1, q2⟩ hn, posAfter, ih r _ hlen hall.2]
        rw [e, List.append_nil]

theorem flt_chars {f : DecFloat} (hf : f.Ok) : f.text.all isFltC = true := by
  obtain ⟨h1, h2, h3, h4, h5⟩ := hf
  have dig : ∀ ds : Str, ds.all Char.isDigit = true → ds.all isFltC = true := by
    intro ds h
    rw [List.all_eq_true] at h ⊢
    intro c hc
    simp [isFltC, h c hc]
  simp only [DecFloat.text, List.all_append, Bool.and_eq_true]
  refine ⟨⟨dig _ h1, ?_⟩, ?_⟩
  · cases hfr : f.frac with
    | none => rfl
    | some ds =>
      simp only [DecFloat.digits, hfr, Option.getD_some] at h2
      simp [dig _ h2, show isFltC '.' = true by decide]
  · cases he : f.expo with
    | none => rfl
    | some e =>
      obtain ⟨c, s, ds⟩ := e
      obtain ⟨a1, a2, a3⟩ := h5 c s ds he
      have hc : isFltC c = true := by rcases a1 with rfl | rfl <;> decide
      have hsg : (signText s).all isFltC = true := by rcases s with _ | _ | _ <;> decide
      simp [hc, dig _ a3, hsg]

/-- What follows the digits in front. -/
theorem flt_tail {f : DecFloat} (hf : f.Ok) : ∃ c r, f.text = f.whole ++ c :: r ∧ (c = '.' ∨ c = 'e' ∨ c = 'E') ∧
    (f.whole = [] → c = '.') := by
  obtain ⟨h1, h2, h3, h4, h5⟩ := hf
  cases hfr : f.frac with
  | some ds =>
    simp only [DecFloat.text, hfr]
    exact ⟨'.', _, by rw [List.append_assoc]; rfl, .inl rfl, fun _ => rfl⟩
  | none =>
    cases he : f.expo with
    | none => simp [hfr, he] at h4
    | some e =>
      obtain ⟨c, s, ds⟩ := e
      refine ⟨c, signText s ++ ds, by simp [DecFloat.text, hfr, he], .inr (h5 c s ds he).1, fun h0 => ?_⟩
      simp [DecFloat.digits, hfr, h0] at h3

theorem digits_split {ds r : Str} (h : ds.all Char.isDigit = true) (hr : ∀ c, r.head? = some c → c.isDigit = false) :
    (ds ++ r).takeWhile Char.isDigit = ds ∧ (ds ++ r).dropWhile Char.isDigit = r := by
  rw [List.all_eq_true] at h
  rw [List.takeWhile_append_of_pos (fun c hc => h c hc), List.dropWhile_append_of_pos (fun c hc => h c hc)]
  cases r with
  | nil => simp
  | cons c r => simp [hr c rfl]

theorem kTok_flt {f : DecFloat} (hf : f.Ok) (n : Nat) : kTok n f.text = none := by
  obtain ⟨c, r, e, hc, h0⟩ := flt_tail hf
  have hall := flt_chars hf
  rw [e] at hall ⊢
  cases n with
  | zero => rfl
  | succ n =>
    cases hw : f.whole with
    | nil =>
      obtain rfl := h0 hw
      simp only [List.nil_append, kTok]
      simp [show isIdentStart '.' = false by decide]
    | cons d w =>
      have hd := hf.1
      rw [hw] at hall hd
      simp only [List.all_cons, Bool.and_eq_true] at hd
      simp only [List.cons_append, List.all_cons, Bool.and_eq_true] at hall
      have hb : ¬ (d = ' ' ∨ d = '\t') := by
        have := (isFltC_ne hall.1).2.2.1
        simpa [isKBlank] using this
      have hx : ¬ (d = '0' ∧ ((w ++ c :: r).head? = some 'x' ∨ (w ++ c :: r).head? = some 'X')) := by
        rintro ⟨_, h | h⟩ <;>
        · have hm := List.mem_of_mem_head? (Option.mem_def.2 h)
          have := isFltC_ne (List.all_eq_true.1 hall.2 _ hm)
          simp at this
      have hcd : c.isDigit = false := by rcases hc with rfl | rfl | rfl <;> decide
      have hst : numStop (c :: r) = false := by rcases hc with rfl | rfl | rfl <;> rfl
      have hs := digits_split (r := c :: r) hd.2 (by simp [hcd])
      simp only [List.cons_append, kTok, if_neg hb, hd.1, if_true, if_neg hx, hs.2, hst]
      simp

theorem expoVal_read {c : Char} {s : Option Bool} {ds : Str} (hc : c = 'e' ∨ c = 'E') (h0 : ds ≠ [])
    (hd : ds.all Char.isDigit = true) : expoVal (c :: (signText s ++ ds)) =
      some (if s = some true then -(posValue 10 ds.reverse : Int) else posValue 10 ds.reverse) := by
  have hhex : ds.all isHexC = true := by
    rw [List.all_eq_true] at hd ⊢
    intro d h
    simp [isHexC, hd d h]
  have hk := kDigits_eq 10 ds hhex
  have hcc : (decide (c = 'e') || decide (c = 'E')) = true := by rcases hc with rfl | rfl <;> rfl
  cases s with
  | none =>
    cases ds with
    | nil => exact absurd rfl h0
    | cons d ds =>
      have hdd : d.isDigit = true := by simp only [List.all_cons, Bool.and_eq_true] at hd; exact hd.1
      have n1 : d ≠ '+' := by rintro rfl; revert hdd; decide
      have n2 : d ≠ '-' := by rintro rfl; revert hdd; decide
      simp [expoVal, signText, hcc, n1, n2, hd, hk]
  | some b =>
    cases b <;> simp [expoVal, signText, hcc, hd, hk, h0]

theorem fltLit_read {f : DecFloat} (hf : f.Ok) :
    fltLit f.text = some (decimal (kDigits 10 (f.whole ++ f.digits)) (f.power - f.digits.length)) := by
  obtain ⟨h1, h2, h3, h4, h5⟩ := hf
  have hex : ∀ c s ds, f.expo = some (c, s, ds) → expoVal (c :: (signText s ++ ds)) = some f.power ∧ c.isDigit = false ∧ c ≠ '.' := by
    intro c s ds he
    obtain ⟨a1, a2, a3⟩ := h5 c s ds he
    refine ⟨?_, by rcases a1 with rfl | rfl <;> decide, by rcases a1 with rfl | rfl <;> decide⟩
    rw [expoVal_read a1 a2 a3, DecFloat.power, he]
    rcases s with _ | _ | _ <;> simp
  unfold fltLit
  cases hfr : f.frac with
  | some ds =>
    simp only [DecFloat.digits, hfr, Option.getD_some] at h2 h3 ⊢
    have e1 := digits_split (ds := f.whole) (r := '.' :: (ds ++ match f.expo with | none => [] | some (c, s, ds) => c :: (signText s ++ ds)))
      h1 (by simp)
    have et : f.text = f.whole ++ '.' :: (ds ++ match f.expo with | none => [] | some (c, s, ds) => c :: (signText s ++ ds)) := by
      simp only [DecFloat.text, hfr, List.append_assoc, List.cons_append]
      rfl
    rw [et]
    simp only [e1.1, e1.2]
    cases he : f.expo with
    | none =>
      have e2 := digits_split (ds := ds) (r := []) h2 (by simp)
      simp only [e2.1, e2.2, if_neg h3]
      simp [DecFloat.power, he]
    | some e =>
      obtain ⟨c, s, xs⟩ := e
      obtain ⟨a1, a2, a3⟩ := hex c s xs he
      have e2 := digits_split (ds := ds) (r := c :: (signText s ++ xs)) h2 (by simp [a2])
      simp only [e2.1, e2.2, if_neg h3, a1, Option.map_some]
  | none =>
    cases he : f.expo with
    | none => simp [hfr, he] at h4
    | some e =>
      obtain ⟨c, s, xs⟩ := e
      obtain ⟨a1, a2, a3⟩ := hex c s xs he
      have e1 := digits_split (ds := f.whole) (r := c :: (signText s ++ xs)) h1 (by simp [a2])
      have et : f.text = f.whole ++ c :: (signText s ++ xs) := by simp [DecFloat.text, hfr, he]
      simp only [DecFloat.digits, hfr, Option.getD_none, List.append_nil] at h3 ⊢
      rw [et]
      simp only [e1.1, e1.2]
      split
      · rename_i h; cases h; exact absurd rfl a3
      · rw [if_neg h3, a1]; simp

theorem flt_value {f : DecFloat} (hf : f.Ok) :
    decimal (kDigits 10 (f.whole ++ f.digits)) (f.power - f.digits.length) = f.value := by
  obtain ⟨h1, h2, -⟩ := hf
  have hhex : ∀ ds : Str, ds.all Char.isDigit = true → ds.all isHexC = true := by
    intro ds h
    rw [List.all_eq_true] at h ⊢
    intro d hd
    simp [isHexC, h d hd]
  have hk : kDigits 10 (f.whole ++ f.digits) = posValue 10 f.digits.reverse + posValue 10 f.whole.reverse * 10 ^ f.digits.length := by
    have hw := kDigits_eq 10 f.whole (hhex _ h1)
    have := posValue_append 10 f.digits (kDigits 10 f.whole) (hhex _ h2)
    rw [hw] at this
    rw [← this, ← hw]
    simp [kDigits]
  rw [hk, decimal, DecFloat.value]
  push_cast
  have h10 : (10 : Rat) ≠ 0 := by decide
  rw [zpow_sub₀ h10, zpow_natCast]
  field_simp
  ring

theorem kTrim_flt {s : Str} (h : s.all isFltC = true) : kTrim s = s := by
  rw [List.all_eq_true] at h
  refine kTrim_id (fun c hc => ?_) (fun c hc => ?_)
  · exact (isFltC_ne (h c (List.mem_of_mem_head? hc))).2.2.1
  · exact (isFltC_ne (h c (List.mem_of_getLast? hc))).2.2.1

theorem pyLit_flt {f : DecFloat} (hf : f.Ok) (n : Nat) : pyLit (n + 1) f.text = some (.flt f.value) := by
  have hall := flt_chars hf
  obtain ⟨c, r, e, hc, h0⟩ := flt_tail hf
  have hl := fltLit_read hf
  rw [flt_value hf] at hl
  have hd : ∃ d t, f.text = d :: t ∧ d ≠ '(' ∧ d ≠ '-' ∧ d ≠ '+' ∧ d ≠ '"' ∧ d ≠ '\'' := by
    cases hw : f.whole with
    | nil =>
      obtain rfl := h0 hw
      exact ⟨'.', r, by rw [e, hw]; rfl, by decide, by decide, by decide, by decide, by decide⟩
    | cons d w =>
      have hd := hf.1
      rw [hw] at hd
      simp only [List.all_cons, Bool.and_eq_true] at hd
      refine ⟨d, w ++ c :: r, by rw [e, hw]; rfl, ?_, ?_, ?_, ?_, ?_⟩ <;> (rintro rfl; revert hd; simp)
  obtain ⟨d, t, e2, n1, n2, n3, n4, n5⟩ := hd
  have hs : pyStrLit f.text = none := by
    rw [e2]
    simp [pyStrLit, n4, n5]
  rw [pyLit, kTrim_flt hall]
  split
  · rename_i h; rw [e2] at h; cases h; exact absurd rfl n1
  · rename_i h; rw [e2] at h; cases h; exact absurd rfl n2
  · rename_i h; rw [e2] at h; cases h; exact absurd rfl n3
  · rw [hs, hl]; rfl

/-- A floating constant with a sign or without. -/
theorem evalExpr_flt {g : Gram} {py : Dict Str DefVal → Str → PVal} {tbl : Dict Str DefVal} {f : DecFloat} (hf : f.Ok)
    (sg : Option Bool) {s : Str} (hs : strip s = signText sg ++ f.text) :
    evalExpr g py tbl s = .flt (if sg = some true then -f.value else f.value) := by
  have hall := flt_chars hf
  have hsg : (signText sg ++ f.text).all isFltC = true := by
    rw [List.all_append, hall]
    rcases sg with _ | _ | _ <;> decide
  have e : evalText g s = signText sg ++ f.text := by
    rw [evalText, hs, evalScan_flt _ _ _ (Nat.lt_succ_self _) hsg]
  have hne : f.text ≠ [] := by
    obtain ⟨c, r, e, -⟩ := flt_tail hf
    rw [e]; simp
  have hk : kTok ((signText sg ++ f.text).length + 1) (signText sg ++ f.text) = none := by
    rcases sg with _ | _ | _
    · exact kTok_flt hf _
    · simp only [signText, List.cons_append, List.nil_append, List.length_cons, kTok]
      simp [kTok_flt hf, show isIdentStart '+' = false by decide]
    · simp only [signText, List.cons_append, List.nil_append, List.length_cons, kTok]
      simp [kTok_flt hf, show isIdentStart '-' = false by decide]
  have hl : pyLit ((signText sg ++ f.text).length + 1) (signText sg ++ f.text) =
      some (.flt (if sg = some true then -f.value else f.value)) := by
    rcases sg with _ | _ | _
    · simpa [signText] using pyLit_flt hf f.text.length
    · rw [pyLit, kTrim_flt hsg]
      simp only [signText, List.cons_append, List.nil_append, List.length_cons, pyLit_flt hf]
      simp
    · rw [pyLit, kTrim_flt hsg]
      simp only [signText, List.cons_append, List.nil_append, List.length_cons, pyLit_flt hf]
      simp
  unfold evalExpr
  rw [e, if_neg (by simp [hne])]
  simp only [pyEvalK, hk, pyEvalF, hl]

end Pyclib
