import Verif.Proof.Respace
/-
Expressions do not depend on white space.
-/
namespace Pyclib
open Spec

section
variable {pk pk' : Nat → Option Nat} {x y : Pos}

/-! ### Text in brackets -/

/-- The inside of `nestedExpr`, without bound. -/
def nest (o c : Char) (d : Nat) (t : Str) : Option Str := nestLoop o c t.length d t

theorem nest_nil (o c : Char) (d : Nat) : nest o c d [] = none := rfl

theorem nest_cons (o c : Char) (d : Nat) (a : Char) (s : Str) : nest o c d (a :: s) =
    match (if a = '"' || a = '\'' then matchQuoted a s else none) with
    | some p => nest o c d p.2
    | none => if a = o then nest o c (d + 1) s else if a = c then (match d with | 0 => some s | d + 1 => nest o c d s) else nest o c d s := by
  unfold nest
  rw [List.length_cons, nestLoop_cons]
  cases hq : (if (decide (a = '"') || decide (a = '\'')) = true then matchQuoted a s else none) with
  | none => rfl
  | some p =>
    split at hq
    · obtain ⟨b, r⟩ := p
      have := matchQuoted_len hq
      exact nestLoop_fuel _ _ _ r (by omega) (Nat.le_refl _)
    · cases hq

theorem nest_white {o c : Char} (ho : isWhite o = false) (hc : isWhite c = false) (d : Nat) : ∀ (w : Str), w.all isWhite = true → ∀ t,
    nest o c d (w ++ t) = nest o c d t
  | [], _, t => rfl
  | a :: w, h, t => by
    simp only [List.all_cons, Bool.and_eq_true] at h
    have h1 : a ≠ o := by rintro rfl; rw [h.1] at ho; cases ho
    have h2 : a ≠ c := by rintro rfl; rw [h.1] at hc; cases hc
    have h3 : (decide (a = '"') || decide (a = '\'')) = false := by
      cases hq : isQuoteC a with
      | false => exact hq
      | true => rw [quote_white hq] at h; cases h.1
    rw [List.cons_append, nest_cons, h3]
    simp only [Bool.false_eq_true, if_false, h1, h2]
    exact nest_white ho hc d w h.2 t

theorem nest_rel {o c : Char} (ho : isWhite o = false) (hc : isWhite c = false) {k : Ctx} {p : Char} {t t' : Str} (h : Respaced pk pk' k p t t') :
    ∀ d, (nest o c d t = none ∧ nest o c d t' = none) ∨ ∃ k r r', nest o c d t = some r ∧ nest o c d t' = some r' ∧ Respaced pk pk' k c r r' := by
  have main : ∀ (k : Ctx) (a : Char) (u u' : Str) (d : Nat), Respaced pk pk' k a u u' →
      (∀ d, (nest o c d u = none ∧ nest o c d u' = none) ∨ ∃ k r r', nest o c d u = some r ∧ nest o c d u' = some r' ∧ Respaced pk pk' k c r r') →
      ((if a = o then nest o c (d + 1) u else if a = c then (match d with | 0 => some u | d + 1 => nest o c d u) else nest o c d u) = none ∧
        (if a = o then nest o c (d + 1) u' else if a = c then (match d with | 0 => some u' | d + 1 => nest o c d u') else nest o c d u') = none) ∨
      ∃ k r r', (if a = o then nest o c (d + 1) u else if a = c then (match d with | 0 => some u | d + 1 => nest o c d u) else nest o c d u) = some r ∧
        (if a = o then nest o c (d + 1) u' else if a = c then (match d with | 0 => some u' | d + 1 => nest o c d u') else nest o c d u') = some r' ∧
        Respaced pk pk' k c r r' := by
    intro k a u u' d hr ih
    by_cases h1 : a = o
    · simp only [if_pos h1]; exact ih (d + 1)
    · simp only [if_neg h1]
      by_cases h2 : a = c
      · simp only [if_pos h2]
        cases d with
        | zero => subst h2; exact .inr ⟨_, _, _, rfl, rfl, hr⟩
        | succ d => exact ih d
      · simp only [if_neg h2]; exact ih d
  induction h with
  | tail k p w w' hw hw' =>
    intro d
    have a := nest_white ho hc d w hw []
    have b := nest_white ho hc d w' hw' []
    simp only [List.append_nil] at a b
    exact .inl ⟨a, b⟩
  | char k p w w' a u u' hw hw' ha hg hk hq h ih =>
    intro d
    rw [nest_white ho hc d w hw, nest_white ho hc d w' hw', nest_cons, nest_cons]
    have e : ∀ v, (isQuoteC a = true → matchQuoted a v = none) → (if (decide (a = '"') || decide (a = '\'')) = true then matchQuoted a v else none) = none := by
      intro v hv
      split
      · rename_i hh; exact hv hh
      · rfl
    rw [e u (fun hh => (hq hh).1), e u' (fun hh => (hq hh).2)]
    exact main _ a u u' d h ih
  | literal k p w w' a u u' b r r' hw hw' ha hg hk hq hq' h hr ih ih' =>
    intro d
    rw [nest_white ho hc d w hw, nest_white ho hc d w' hw', nest_cons, nest_cons]
    have e : (decide (a = '"') || decide (a = '\'')) = true := ha
    simp only [e, if_true, hq, hq']
    exact ih' d

theorem nestedP_rel {o c : Char} (ho : isWhite o = false) (hc : isWhite c = false) (h : PR pk pk' x y) : OP pk pk' (nestedP o c x) (nestedP o c y) := by
  unfold nestedP
  have key : ∀ z, lit o z = none ∨ ∃ u, lit o z = some ⟨o, u⟩ := by
    intro z
    unfold lit
    cases z.skip.rest with
    | nil => exact .inl rfl
    | cons d s =>
      simp only
      split
      · exact .inr ⟨_, rfl⟩
      · exact .inl rfl
  have hl : (lit o x = none ∧ lit o y = none) ∨ ∃ u v, lit o x = some ⟨o, u⟩ ∧ lit o y = some ⟨o, v⟩ ∧ Respaced pk pk' .free ';' u v := by
    rcases lit_rel o h with h1 | ⟨u, v, h1, h2, hr⟩
    · exact .inl h1
    · rcases key x with e | ⟨u1, e⟩
      · rw [e] at h1; cases h1
      · rcases key y with e' | ⟨v1, e'⟩
        · rw [e'] at h2; cases h2
        · rw [e] at h1; rw [e'] at h2
          cases h1; cases h2
          exact .inr ⟨_, _, e, e', hr.text⟩
  rcases hl with ⟨h1, h2⟩ | ⟨u, v, h1, h2, hr⟩
  · rw [h1, h2]; exact .inl ⟨rfl, rfl⟩
  · rw [h1, h2]
    simp only
    change OP _ _ ((nest o c 0 u).map _) ((nest o c 0 v).map _)
    rcases nest_rel ho hc hr 0 with ⟨n1, n2⟩ | ⟨k, r, r', n1, n2, hr⟩
    · rw [n1, n2]; exact .inl ⟨rfl, rfl⟩
    · rw [n1, n2]; exact .inr ⟨_, _, rfl, rfl, hr.pos⟩

theorem qualLoop_rel (cfg : Cfg) : ∀ (n : Nat) {x y : Pos}, PR pk pk' x y → TR pk pk' (qualLoop cfg n x) (qualLoop cfg n y)
  | 0, x, y, h => ⟨_, _, _, rfl, rfl, h⟩
  | n + 1, x, y, h => by
    rcases underIdent_rel cfg h with ⟨h1, h2⟩ | ⟨u, v, h1, h2, hr⟩
    · rcases kwl_rel qual_words h with ⟨k1, k2⟩ | ⟨w, u, v, k1, k2, hr⟩
      · simp only [qualLoop, h1, h2, k1, k2]; exact ⟨_, _, _, rfl, rfl, h⟩
      · simp only [qualLoop, h1, h2, k1, k2]
        obtain ⟨a, u', v', e1, e2, hr⟩ := qualLoop_rel cfg n hr
        rw [e1, e2]; exact ⟨_, _, _, rfl, rfl, hr⟩
    · rcases nestedP_rel (o := '(') (c := ')') rfl rfl hr with ⟨k1, k2⟩ | ⟨u', v', k1, k2, hr'⟩
      · simp only [qualLoop, h1, h2, k1, k2]
        obtain ⟨a, u', v', e1, e2, hr⟩ := qualLoop_rel cfg n hr
        rw [e1, e2]; exact ⟨_, _, _, rfl, rfl, hr⟩
      · simp only [qualLoop, h1, h2, k1, k2]
        obtain ⟨a, u', v', e1, e2, hr⟩ := qualLoop_rel cfg n hr'
        rw [e1, e2]; exact ⟨_, _, _, rfl, rfl, hr⟩

theorem le_left (x y : Pos) : x.rest.length ≤ both x y := by unfold both; omega
theorem le_right (x y : Pos) : y.rest.length ≤ both x y := by unfold both; omega

theorem qualP_rel (cfg : Cfg) (h : PR pk pk' x y) : TR pk pk' (qualP cfg x) (qualP cfg y) := by
  unfold qualP
  rw [qualLoop_fuel _ (both x y) x (Nat.le_refl _) (le_left x y), qualLoop_fuel _ (both x y) y (Nat.le_refl _) (le_right x y)]
  exact qualLoop_rel cfg _ h

/-! ### Operators -/

/-- Operators: one character, two characters, or a word. -/
def opOk (o : Str) : Bool :=
  match o with
  | [] => false
  | [_] => true
  | [c, d] => (decide ((c, d) ∈ opPairs) && !isWhite d) || (isWordC c && isWordC d)
  | o => o.all isWordC

theorem prefix_rel : ∀ (o : Str), o.all isWordC = true → ∀ {k : Ctx} {p : Char} {t t' : Str}, inWord p = true → Respaced pk pk' k p t t' →
    startsWith t o = startsWith t' o ∧ (startsWith t o = true → ∃ k, Respaced pk pk' k (o.getLastD p) (t.drop o.length) (t'.drop o.length))
  | [], _, k, p, t, t', _, h => ⟨by simp [startsWith], fun _ => ⟨k, h⟩⟩
  | d :: o, ho, k, p, t, t', hp, h => by
    simp only [List.all_cons, Bool.and_eq_true] at ho
    have no : ∀ s : Str, (∀ c u, s = c :: u → inWord c = false) → startsWith s (d :: o) = false := by
      intro s hs
      cases s with
      | nil => rfl
      | cons c u =>
        have : c ≠ d := by
          rintro rfl
          have := hs _ _ rfl
          rw [word_in ho.1] at this; cases this
        simp [startsWith, this]
    rcases next_rel h hp with ⟨c, u, u', rfl, rfl, hr⟩ | ⟨n1, n2⟩
    · by_cases hc : c = d
      · subst hc
        obtain ⟨a, b⟩ := prefix_rel o ho.2 (word_in ho.1) hr
        simp only [startsWith, decide_true, Bool.true_and, List.length_cons, List.drop_succ_cons, List.getLastD_cons]
        exact ⟨a, b⟩
      · simp [startsWith, hc]
    · rw [no _ (fun c u h => (n1 c u h).1), no _ (fun c u h => (n2 c u h).1)]
      exact ⟨rfl, by simp⟩

theorem op_rel {o : Str} (ho : opOk o = true) {k : Ctx} {c : Char} {t t' : Str} (h : Respaced pk pk' k c t t') :
    startsWith (c :: t) o = startsWith (c :: t') o ∧
      (startsWith (c :: t) o = true → PR pk pk' (posAfter o ((c :: t).drop o.length)) (posAfter o ((c :: t').drop o.length))) := by
  have word : ∀ (d : Char) (o : Str), (d :: o).all isWordC = true → startsWith (c :: t) (d :: o) = startsWith (c :: t') (d :: o) ∧
      (startsWith (c :: t) (d :: o) = true →
        PR pk pk' (posAfter (d :: o) ((c :: t).drop (d :: o).length)) (posAfter (d :: o) ((c :: t').drop (d :: o).length))) := by
    intro d o ho
    simp only [List.all_cons, Bool.and_eq_true] at ho
    by_cases hc : c = d
    · subst hc
      obtain ⟨a, b⟩ := prefix_rel o ho.2 (word_in ho.1) h
      simp only [startsWith, decide_true, Bool.true_and, List.length_cons, List.drop_succ_cons]
      refine ⟨a, fun e => ?_⟩
      unfold posAfter
      rw [List.getLastD_cons]
      obtain ⟨k1, b⟩ := b e
      exact b.pos
    · simp [startsWith, hc]
  match o, ho with
  | [d], _ =>
    by_cases hc : c = d
    · subst hc; simp [startsWith, posAfter]; exact h.pos
    · simp [startsWith, hc]
  | [d, e], ho =>
    simp only [opOk, Bool.or_eq_true, Bool.and_eq_true, decide_eq_true_eq, Bool.not_eq_true'] at ho
    rcases ho with ⟨ho, he⟩ | ho
    · by_cases hc : c = d
      · subst hc
        have no : ∀ s : Str, (∀ a u, s = a :: u → a ≠ e) → startsWith (c :: s) [c, e] = false := by
          intro s hs
          cases s with
          | nil => simp [startsWith]
          | cons a u => simp [startsWith, hs a u rfl]
        have hwh : ∀ (w s : Str), w.all isWhite = true → w ≠ [] → ∀ a u, w ++ s = a :: u → a ≠ e := by
          rintro w s hw hn a u heq rfl
          cases w with
          | nil => exact hn rfl
          | cons b w =>
            cases heq
            simp only [List.all_cons, Bool.and_eq_true] at hw
            rw [hw.1] at he; cases he
        have hwh' : ∀ (w : Str), w.all isWhite = true → ∀ a u, w = a :: u → a ≠ e := by
          intro w hw a u heq
          refine hwh w [] hw ?_ a u (by rw [List.append_nil]; exact heq)
          rw [heq]; simp
        have both : startsWith (c :: t) [c, e] = false → startsWith (c :: t') [c, e] = false →
            startsWith (c :: t) [c, e] = startsWith (c :: t') [c, e] ∧ (startsWith (c :: t) [c, e] = true →
              PR pk pk' (posAfter [c, e] ((c :: t).drop [c, e].length)) (posAfter [c, e] ((c :: t').drop [c, e].length))) := by
          intro a b
          rw [a, b]; exact ⟨rfl, by simp⟩
        rcases h.view with ⟨h1, h2⟩ | ⟨w, w', a, u, u', e1, e2, hw, hw', ha, hg, hk, hq, hr⟩
        · exact both (no _ (hwh' t h1)) (no _ (hwh' t' h2))
        · rcases hg with rfl | ⟨_, ⟨g1, g2⟩ | hm⟩
          · cases w with
            | cons b w => exact both (no _ (by rw [e1]; exact hwh _ _ hw (by simp))) (no _ (by rw [e2]; exact hwh _ _ hw (by simp)))
            | nil =>
              simp only [List.nil_append] at e1 e2
              subst e1; subst e2
              by_cases hae : a = e
              · subst hae; simp [startsWith, posAfter]; exact hr.pos
              · simp [startsWith, hae]
          · exact both (no _ (by rw [e1]; exact hwh _ _ hw g1)) (no _ (by rw [e2]; exact hwh _ _ hw' g2))
          · have hae : a ≠ e := by
              rintro rfl
              simp [mayTouch, ho] at hm
            have all : ∀ (v s : Str), v.all isWhite = true → ∀ b r, v ++ a :: s = b :: r → b ≠ e := by
              intro v s hv
              cases v with
              | nil => rintro b r ⟨⟩; exact hae
              | cons b v => exact hwh _ _ hv (by simp)
            exact both (no _ (by rw [e1]; exact all _ _ hw)) (no _ (by rw [e2]; exact all _ _ hw'))
      · simp [startsWith, hc]
    · exact word d [e] (by simp [ho.1, ho.2])
  | d :: e :: f :: o, ho => exact word d (e :: f :: o) ho

theorem find_rel {α : Type} {f g : α → Bool} : ∀ {l : List α}, (∀ a ∈ l, f a = g a) → l.find? f = l.find? g
  | [], _ => rfl
  | a :: l, h => by
    rw [List.find?_cons, List.find?_cons, h a (by simp), find_rel (fun b hb => h b (by simp [hb]))]

theorem oneOfP_rel {ops : List Str} (ho : ops.all opOk = true) (h : PR pk pk' x y) : OR pk pk' (oneOfP ops x) (oneOfP ops y) := by
  unfold oneOfP
  unfold PR at h
  generalize x.skip = x1 at h
  generalize y.skip = y1 at h
  have ho := List.all_eq_true.1 ho
  cases h with
  | done p q => 
    left
    have : ops.find? (startsWith []) = none := by
      rw [List.find?_eq_none]
      intro o hm
      have := ho o hm
      cases o with
      | nil => simp [opOk] at this
      | cons a o => simp [startsWith]
    simp [this]
  | char p q kx c t t' hc hp hsp hk hq h =>
    simp only
    rw [← find_rel (fun o hm => (op_rel (ho o hm) h).1)]
    cases hf : ops.find? (startsWith (c :: t)) with
    | none => exact .inl ⟨rfl, rfl⟩
    | some o => exact .inr ⟨_, _, _, rfl, rfl, (op_rel (ho o (List.mem_of_find?_eq_some hf)) h).2 (List.find?_some hf)⟩

theorem opsLoop_rel {ops : List Str} (ho : ops.all opOk = true) : ∀ (n : Nat) {x y : Pos}, PR pk pk' x y → TR pk pk' (opsLoop ops n x) (opsLoop ops n y)
  | 0, x, y, h => ⟨_, _, _, rfl, rfl, h⟩
  | n + 1, x, y, h => by
    rcases oneOfP_rel ho h with ⟨h1, h2⟩ | ⟨o, u, v, h1, h2, hr⟩
    · simp only [opsLoop, h1, h2]; exact ⟨_, _, _, rfl, rfl, h⟩
    · simp only [opsLoop, h1, h2]
      obtain ⟨a, u', v', e1, e2, hr⟩ := opsLoop_rel ho n hr
      rw [e1, e2]; exact ⟨_, _, _, rfl, rfl, hr⟩

theorem ops_rel {ops : List Str} (hn : [] ∉ ops) (ho : ops.all opOk = true) (h : PR pk pk' x y) :
    TR pk pk' (opsLoop ops x.rest.length x) (opsLoop ops y.rest.length y) := by
  rw [opsLoop_fuel hn _ (both x y) x (Nat.le_refl _) (le_left x y), opsLoop_fuel hn _ (both x y) y (Nat.le_refl _) (le_right x y)]
  exact opsLoop_rel ho _ h

theorem opsLoop_stop {ops : List Str} (hn : [] ∉ ops) : ∀ (n : Nat) (x : Pos), x.rest.length ≤ n → oneOfP ops (opsLoop ops n x).2 = none
  | 0, x, h => by
    simp only [opsLoop]
    cases ho : oneOfP ops x with
    | none => rfl
    | some p => have := oneOfP_len hn ho; omega
  | n + 1, x, h => by
    cases ho : oneOfP ops x with
    | none => simp only [opsLoop, ho]
    | some p =>
      obtain ⟨o, u⟩ := p
      have := oneOfP_len hn ho
      simp only [opsLoop, ho]
      exact opsLoop_stop hn n u (by omega)

/-- No sign is left after the operators in front of an operand. -/
theorem no_sign (x : Pos) (c : Char) (t : Str) (h : (opsLoop leftOps x.rest.length x).2.skip.rest = c :: t) : isSign c = false := by
  have := opsLoop_stop left_ops _ x (Nat.le_refl _)
  generalize (opsLoop leftOps x.rest.length x).2 = y at this h
  unfold oneOfP at this
  rw [h] at this
  simp only [Option.map_eq_none_iff, List.find?_eq_none] at this
  cases hs : isSign c with
  | false => rfl
  | true =>
    simp only [isSign, Bool.or_eq_true, decide_eq_true_eq] at hs
    rcases hs with rfl | rfl
    · exact absurd (this c%"+" (by decide)) (by simp [startsWith])
    · exact absurd (this c%"-" (by decide)) (by simp [startsWith])

/-! ### Expressions -/

/-- Related elements of the grammar. -/
def PRel (pk pk' : Nat → Option Nat) {α : Type} (p q : PP α) : Prop := ∀ x y, PR pk pk' x y → OR pk pk' (p x) (q y)

theorem agree_refl {α : Type} (p : PP α) (n : Nat) : Agree p p n := fun _ _ => rfl

theorem commaLoop_rel {α : Type} {p : PP α} (hp : PRel pk pk' p p) : ∀ (n : Nat) {x y : Pos}, PR pk pk' x y →
    TR pk pk' (commaLoop p n x) (commaLoop p n y)
  | 0, x, y, h => ⟨_, _, _, rfl, rfl, h⟩
  | n + 1, x, y, h => by
    rcases lit_rel ',' h with ⟨h1, h2⟩ | ⟨u, v, h1, h2, hr⟩
    · simp only [commaLoop, h1, h2]; exact ⟨_, _, _, rfl, rfl, h⟩
    · rcases hp u v hr with ⟨k1, k2⟩ | ⟨b, u', v', k1, k2, hr'⟩
      · simp only [commaLoop, h1, h2, k1, k2]; exact ⟨_, _, _, rfl, rfl, h⟩
      · simp only [commaLoop, h1, h2, k1, k2]
        obtain ⟨a, u', v', e1, e2, hr⟩ := commaLoop_rel hp n hr'
        rw [e1, e2]; exact ⟨_, _, _, rfl, rfl, hr⟩

theorem delimited_rel {α : Type} {p : PP α} (hs : Sh p) (hp : PRel pk pk' p p) : PRel pk pk' (delimited p) (delimited p) := by
  intro x y h
  unfold delimited
  rcases hp x y h with ⟨h1, h2⟩ | ⟨b, u, v, h1, h2, hr⟩
  · rw [h1, h2]; exact .inl ⟨rfl, rfl⟩
  · simp only [h1, h2]
    rw [commaLoop_fuel hs _ (both u v) u (Nat.le_refl _) (le_left u v) (agree_refl p _),
      commaLoop_fuel hs _ (both u v) v (Nat.le_refl _) (le_right u v) (agree_refl p _)]
    obtain ⟨a, u', v', e1, e2, hr⟩ := commaLoop_rel hp (both u v) hr
    rw [e1, e2]; exact .inr ⟨_, _, _, rfl, rfl, hr⟩

theorem OR.getD {α : Type} {o o' : Option (α × Pos)} (h : OR pk pk' o o') (a : α) (hx : PR pk pk' x y) : TR pk pk' (o.getD (a, x)) (o'.getD (a, y)) := by
  rcases h with ⟨h1, h2⟩ | ⟨b, u, v, h1, h2, hr⟩
  · rw [h1, h2]; exact ⟨_, _, _, rfl, rfl, hx⟩
  · rw [h1, h2]; exact ⟨_, _, _, rfl, rfl, hr⟩

theorem OP.getD {o o' : Option Pos} (h : OP pk pk' o o') (hx : PR pk pk' x y) : PR pk pk' (o.getD x) (o'.getD y) := by
  rcases h with ⟨h1, h2⟩ | ⟨u, v, h1, h2, hr⟩
  · rw [h1, h2]; exact hx
  · rw [h1, h2]; exact hr

theorem OP.map {α : Type} {o o' : Option Pos} (h : OP pk pk' o o') (a : α) : OR pk pk' (o.map (fun z => (a, z))) (o'.map (fun z => (a, z))) := by
  rcases h with ⟨h1, h2⟩ | ⟨u, v, h1, h2, hr⟩
  · rw [h1, h2]; exact .inl ⟨rfl, rfl⟩
  · rw [h1, h2]; exact .inr ⟨_, _, _, rfl, rfl, hr⟩

theorem OP.bind {α : Type} {o o' : Option Pos} (h : OP pk pk' o o') {p q : PP α} (hp : PRel pk pk' p q) : OR pk pk' (o.bind p) (o'.bind q) := by
  rcases h with ⟨h1, h2⟩ | ⟨u, v, h1, h2, hr⟩
  · rw [h1, h2]; exact .inl ⟨rfl, rfl⟩
  · rw [h1, h2]; exact hp u v hr

theorem OR.or {α : Type} {a a' b b' : Option (α × Pos)} (h : OR pk pk' a a') (h' : OR pk pk' b b') : OR pk pk' (a.or b) (a'.or b') := by
  rcases h with ⟨h1, h2⟩ | ⟨x, u, v, h1, h2, hr⟩
  · rw [h1, h2]; exact h'
  · rw [h1, h2]; exact .inr ⟨x, u, v, rfl, rfl, hr⟩

theorem callP_rel {rec : PP Str} (hs : Sh rec) (hp : PRel pk pk' rec rec) : PRel pk pk' (callP rec) (callP rec) := by
  intro x y h
  unfold callP
  rcases lit_rel '(' h with ⟨h1, h2⟩ | ⟨u, v, h1, h2, hr⟩
  · rw [h1, h2]; exact .inl ⟨rfl, rfl⟩
  · simp only [h1, h2]
    obtain ⟨a, u', v', e1, e2, hr'⟩ := (delimited_rel hs hp u v hr).getD [] hr
    rw [e1, e2]
    exact (lit_rel ')' hr').map _

theorem indexLoop_rel {rec : PP Str} (hp : PRel pk pk' rec rec) : ∀ (n : Nat) {x y : Pos}, PR pk pk' x y →
    TR pk pk' (indexLoop rec n x) (indexLoop rec n y)
  | 0, x, y, h => ⟨_, _, _, rfl, rfl, h⟩
  | n + 1, x, y, h => by
    rcases (lit_rel '[' h).bind hp with ⟨h1, h2⟩ | ⟨e, u, v, h1, h2, hr⟩
    · simp only [indexLoop, h1, h2]; exact ⟨_, _, _, rfl, rfl, h⟩
    · rcases lit_rel ']' hr with ⟨k1, k2⟩ | ⟨u', v', k1, k2, hr'⟩
      · simp only [indexLoop, h1, h2, k1, k2]; exact ⟨_, _, _, rfl, rfl, h⟩
      · simp only [indexLoop, h1, h2, k1, k2]
        obtain ⟨a, u', v', e1, e2, hr⟩ := indexLoop_rel hp n hr'
        rw [e1, e2]; exact ⟨_, _, _, rfl, rfl, hr⟩

theorem coreP_rel {cfg : Cfg} {rec : PP Str} (hs : Sh rec) (hp : PRel pk pk' rec rec) (hx : NumAt pk pk' x y) :
    OR pk pk' (coreP cfg rec x) (coreP cfg rec y) := by
  have h := hx.1
  unfold coreP
  rcases identP_rel cfg h with ⟨h1, h2⟩ | ⟨i, u, v, h1, h2, hr⟩
  · simp only [h1, h2]
    rcases numberP_rel hx with ⟨h1, h2⟩ | ⟨i, u, v, h1, h2, hr⟩
    · simp only [h1, h2]
      rcases quotedTok_rel h with ⟨h1, h2⟩ | ⟨i, u, v, h1, h2, hr⟩
      · simp only [h1, h2]
        rcases (lit_rel '(' h).bind hp with ⟨h1, h2⟩ | ⟨i, u, v, h1, h2, hr⟩
        · simp only [h1, h2]; exact .inl ⟨rfl, rfl⟩
        · simp only [h1, h2]; exact (lit_rel ')' hr).map _
      · simp only [h1, h2]; exact .inr ⟨_, _, _, rfl, rfl, hr⟩
    · simp only [h1, h2]; exact .inr ⟨_, _, _, rfl, rfl, hr⟩
  · simp only [h1, h2]
    rcases callP_rel hs hp u v hr with ⟨h1, h2⟩ | ⟨i, u', v', h1, h2, hr'⟩
    · simp only [h1, h2]
      rw [indexLoop_fuel hs _ (both u v) u (Nat.le_refl _) (le_left u v) (agree_refl rec _),
        indexLoop_fuel hs _ (both u v) v (Nat.le_refl _) (le_right u v) (agree_refl rec _)]
      obtain ⟨a, u', v', e1, e2, hr⟩ := indexLoop_rel hp (both u v) hr
      rw [e1, e2]; exact .inr ⟨_, _, _, rfl, rfl, hr⟩
    · simp only [h1, h2]; exact .inr ⟨_, _, _, rfl, rfl, hr'⟩

theorem castP_rel (cfg : Cfg) (hx : NumAt pk pk' x y) : NumAt pk pk' (castP cfg x) (castP cfg y) := by
  have h := hx.1
  unfold castP
  rcases (lit_rel '(' h).bind (p := identP cfg) (q := identP cfg) (fun x y h => identP_rel cfg h) with ⟨h1, h2⟩ | ⟨i, u, v, h1, h2, hr⟩
  · simp only [h1, h2]; exact hx
  · simp only [h1, h2]
    rcases lit_num (.inl rfl) hr with ⟨l1, l2⟩ | ⟨u', v', l1, l2, hr'⟩
    · rw [l1, l2]; exact hx
    · rw [l1, l2]; exact hr'

theorem atomEnd_rel {cfg : Cfg} {rec : PP Str} (hs : Sh rec) (hp : PRel pk pk' rec rec) (ops : List Str) (h : NumAt pk pk' x y) :
    OR pk pk' (atomEnd cfg rec ops x) (atomEnd cfg rec ops y) := by
  unfold atomEnd
  rcases coreP_rel (cfg := cfg) hs hp h with ⟨h1, h2⟩ | ⟨i, u, v, h1, h2, hr⟩
  · simp only [h1, h2]; exact .inl ⟨rfl, rfl⟩
  · simp only [h1, h2]
    obtain ⟨a, u', v', e1, e2, hr⟩ := ops_rel right_ops (by decide) hr
    rw [e1, e2]; exact .inr ⟨_, _, _, rfl, rfl, hr⟩

theorem atomP_rel {cfg : Cfg} {rec : PP Str} (hs : Sh rec) (hp : PRel pk pk' rec rec) : PRel pk pk' (atomP cfg rec) (atomP cfg rec) := by
  intro x y h
  unfold atomP
  obtain ⟨a, u, v, e1, e2, hr⟩ := ops_rel left_ops (by decide) h
  have hn := no_sign x
  simp only [e1] at hn
  simp only [e1, e2]
  have hr := NumAt.plain hr hn
  exact (atomEnd_rel hs hp a (castP_rel cfg hr)).or (atomEnd_rel hs hp a hr)

theorem biLoop_rel {cfg : Cfg} {rec : PP Str} (hs : Sh rec) (hp : PRel pk pk' rec rec) : ∀ (n : Nat) {x y : Pos}, PR pk pk' x y →
    TR pk pk' (biLoop cfg rec n x) (biLoop cfg rec n y)
  | 0, x, y, h => ⟨_, _, _, rfl, rfl, h⟩
  | n + 1, x, y, h => by
    rcases oneOfP_rel (ops := biOps) (by decide) h with ⟨h1, h2⟩ | ⟨e, u, v, h1, h2, hr⟩
    · simp only [biLoop, h1, h2]; exact ⟨_, _, _, rfl, rfl, h⟩
    · rcases atomP_rel (cfg := cfg) hs hp u v hr with ⟨k1, k2⟩ | ⟨ts, u', v', k1, k2, hr'⟩
      · simp only [biLoop, h1, h2, k1, k2]; exact ⟨_, _, _, rfl, rfl, h⟩
      · simp only [biLoop, h1, h2, k1, k2]
        obtain ⟨a, u', v', e1, e2, hr⟩ := biLoop_rel hs hp n hr'
        rw [e1, e2]; exact ⟨_, _, _, rfl, rfl, hr⟩

theorem exprStep_rel {cfg : Cfg} {rec : PP Str} (hs : Sh rec) (hp : PRel pk pk' rec rec) : PRel pk pk' (exprStep cfg rec) (exprStep cfg rec) := by
  intro x y h
  unfold exprStep
  rcases atomP_rel (cfg := cfg) hs hp x y h with ⟨h1, h2⟩ | ⟨ts, u, v, h1, h2, hr⟩
  · simp only [h1, h2]; exact .inl ⟨rfl, rfl⟩
  · simp only [h1, h2]
    rw [biLoop_fuel hs _ (both u v) u (Nat.le_refl _) (le_left u v) (agree_refl _ _),
      biLoop_fuel hs _ (both u v) v (Nat.le_refl _) (le_right u v) (agree_refl _ _)]
    obtain ⟨a, u', v', e1, e2, hr⟩ := biLoop_rel (cfg := cfg) hs hp (both u v) hr
    rw [e1, e2]; exact .inr ⟨_, _, _, rfl, rfl, hr⟩

theorem exprN_rel (cfg : Cfg) : ∀ n, PRel pk pk' (exprN cfg n) (exprN cfg n)
  | 0 => fun _ _ _ => .inl ⟨rfl, rfl⟩
  | n + 1 => by
    rw [exprN_step]
    exact exprStep_rel (exprN_len cfg n) (exprN_rel cfg n)

theorem exprP_rel (cfg : Cfg) : PRel pk pk' (exprP cfg) (exprP cfg) := by
  intro x y h
  unfold exprP
  have h1 := le_left x y
  have h2 := le_right x y
  rw [exprN_fuel cfg _ (both x y + 1) x (by omega) (by omega), exprN_fuel cfg _ (both x y + 1) y (by omega) (by omega)]
  exact exprN_rel cfg _ x y h

end

end Pyclib
