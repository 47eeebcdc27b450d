import Verif.Spec.Load
import Verif.Props.File
/-
Property C88: the text that is parsed is the text of the file with the replacements asked for.
-/
namespace Pyclib

open Spec

theorem reMatch_iff : ∀ (s t u : Str), reMatch (s.map .chr) t = some u ↔ t = s ++ u
  | [], t, u => by simp [reMatch, eq_comm]
  | c :: s, [], u => by simp [reMatch]
  | c :: s, d :: t, u => by
    simp only [List.map_cons, reMatch, List.cons_append, List.cons.injEq]
    split
    · rename_i h
      rw [reMatch_iff s t u]
      simp [h]
    · rename_i h
      simp [h]

theorem Spec.Replaced.skip {s r t u : Str} {c : Char} (h : Replaced s r t u) (hc : ∀ v, c :: t ≠ s ++ v) (hs : s ≠ []) :
    Replaced s r (c :: t) (c :: u) := by
  cases h with
  | none _ h =>
    refine .none _ fun a b e => ?_
    cases a with
    | nil => exact hc b (by simpa using e)
    | cons d a =>
      simp only [List.cons_append, List.cons.injEq] at e
      exact h a b e.2
  | some a t u h h2 =>
    refine Replaced.some (c :: a) t u (fun p q e => ?_) h2
    cases p with
    | nil => exact absurd e (by simpa using hc q)
    | cons d p =>
      simp only [List.cons_append, List.cons.injEq] at e
      have := h p q e.2
      simpa using this

theorem reSubF_replaced {s : Str} (hs : s ≠ []) (r : Str) : ∀ (n : Nat) (t : Str), t.length ≤ n →
    Replaced s r t (reSubF (s.map .chr) r n t)
  | n, [], _ => by
    have : reSubF (s.map .chr) r n [] = [] := by cases n <;> rfl
    rw [this]
    refine .none _ fun a b e => ?_
    cases s with
    | nil => exact hs rfl
    | cons c s => simp at e
  | 0, c :: t, h => by simp at h
  | n + 1, c :: t, h => by
    simp only [List.length_cons, Nat.add_le_add_iff_right] at h
    simp only [reSubF]
    cases hm : reMatch (s.map .chr) (c :: t) with
    | some v =>
      have e := (reMatch_iff _ _ _).1 hm
      have hl : v.length ≤ n := by
        have h1 := congrArg List.length e
        have h2 := List.length_pos_iff.2 hs
        simp only [List.length_cons, List.length_append] at h1
        omega
      have := Replaced.some (s := s) (r := r) [] v _ (by simp) (reSubF_replaced hs r n v hl)
      rw [List.nil_append] at this
      rw [e]
      simpa using this
    | none =>
      refine (reSubF_replaced hs r n t h).skip (fun v e => ?_) hs
      rw [(reMatch_iff _ _ _).2 e] at hm
      cases hm

/-- The result of the replacements is determined. -/
theorem C88_unique {s r t u u' : Str} (h : Replaced s r t u) (h' : Replaced s r t u') : u = u' := by
  induction h generalizing u' with
  | none t h =>
    cases h' with
    | none _ _ => rfl
    | some a t u _ _ => exact absurd rfl (h a t)
  | some a t u h1 h2 ih =>
    generalize ht : a ++ s ++ t = x at h'
    cases h' with
    | none _ h => exact absurd ht.symm (h a t)
    | some a' t' u' h1' h2' =>
      have l1 := h1 _ _ ht
      have l2 := h1' _ _ ht.symm
      rw [List.append_assoc, List.append_assoc] at ht
      obtain ⟨rfl, e⟩ := List.append_inj ht (Nat.le_antisymm l1 l2)
      have e := List.append_cancel_left e
      subst e
      rw [ih h2']

theorem special_meta : ∀ c ∈ reSpecial, c ∈ metaChars := by decide

theorem reParse_plain : ∀ (s : Str), (∀ c ∈ s, c ∉ metaChars) → reParse s = some (s.map .chr)
  | [], _ => rfl
  | c :: s, h => by
    have ih := reParse_plain s fun d hd => h d (by simp [hd])
    have hc := h c (by simp)
    have h1 : c ≠ '\\' := by rintro rfl; exact hc (by decide)
    have h2 : c ≠ '.' := by rintro rfl; exact hc (by decide)
    have h3 : c ∉ reSpecial := fun hm => hc (special_meta c hm)
    rw [reParse.eq_def]
    split
    · rename_i e; cases e
    · rename_i e; cases e; exact absurd rfl h1
    · rename_i e; cases e; exact absurd rfl h1
    · rename_i e; cases e; exact absurd rfl h2
    · rename_i e
      cases e
      rw [if_neg h3, ih]
      rfl

theorem reSub_plain (rx : Str → Str → Str → Except PyErr Str) {x : Str × Str} (h : PlainRep x) (t : Str) :
    ∃ u, reSub rx x.1 x.2 t = .ok u ∧ Replaced x.1 x.2 t u := by
  have hne : (x.1.map ReAtom.chr) ≠ [] := by simpa using h.1.1
  refine ⟨_, ?_, reSubF_replaced h.1.1 x.2 t.length t (Nat.le_refl _)⟩
  unfold reSub
  rw [reParse_plain _ h.1.2]
  simp only [if_neg h.2, if_neg hne]

/-- C88 (partial: strings without the special characters of regular expressions, replacements without backslashes):
the text that is parsed is the text of the file in which, for one entry of the dictionary after the other, all
occurrences of the string were replaced, whatever the module `re` does with other patterns. -/
theorem C88_replace_partial (rx : Str → Str → Str → Except PyErr Str) (reps : List (Str × Str))
    (h : ∀ x ∈ reps, PlainRep x) (content : Str) :
    ∃ u, loadText rx (some reps) content = .ok u ∧ ReplacedAll reps (readText content) u := by
  have key : ∀ (reps : List (Str × Str)), (∀ x ∈ reps, PlainRep x) → ∀ t,
      ∃ u, replaceAll rx reps t = .ok u ∧ ReplacedAll reps t u := by
    intro reps
    induction reps with
    | nil => intro _ t; exact ⟨t, rfl, .nil t⟩
    | cons x reps ih =>
      intro h t
      obtain ⟨u, h1, h2⟩ := reSub_plain rx (h x (by simp)) t
      obtain ⟨v, h3, h4⟩ := ih (fun y hy => h y (by simp [hy])) u
      obtain ⟨p, r⟩ := x
      exact ⟨v, by simp only [replaceAll, h1, h3], .cons _ _ _ _ _ _ h2 h4⟩
  exact key reps h (readText content)

/-- C88: strings that do not occur in the file make no difference. -/
theorem C88_absent (rx : Str → Str → Str → Except PyErr Str) (reps : List (Str × Str)) (h : ∀ x ∈ reps, PlainRep x)
    (content : Str) (ha : ∀ x ∈ reps, ∀ a b, readText content ≠ a ++ x.1 ++ b) :
    loadText rx (some reps) content = loadText rx none content := by
  simp only [loadText]
  induction reps with
  | nil => rfl
  | cons x reps ih =>
    obtain ⟨u, h1, h2⟩ := reSub_plain rx (h x (by simp)) (readText content)
    have : u = readText content := C88_unique h2 (.none _ (ha x (by simp)))
    subst this
    obtain ⟨p, r⟩ := x
    simp only [replaceAll, h1]
    exact ih (fun y hy => h y (by simp [hy])) (fun y hy => ha y (by simp [hy]))

theorem escaped_facts : ∀ c ∈ escaped, c.isAlphanum = false := by decide

theorem metaChars_escaped : ∀ c ∈ metaChars, c ∈ escaped := by decide

theorem reParse_escape : ∀ (s : Str), reParse (escape s) = some (s.map .chr)
  | [] => rfl
  | c :: s => by
    have ih := reParse_escape s
    have e : escape (c :: s) = (if c ∈ escaped then ['\\', c] else [c]) ++ escape s := rfl
    rw [e]
    by_cases hc : c ∈ escaped
    · rw [if_pos hc]
      simp only [List.cons_append, List.nil_append, reParse, escaped_facts c hc, ih]
      rfl
    · rw [if_neg hc]
      have hm : c ∉ metaChars := fun h => hc (metaChars_escaped c h)
      have h1 : c ≠ '\\' := by rintro rfl; exact hm (by decide)
      have h2 : c ≠ '.' := by rintro rfl; exact hm (by decide)
      have h3 : c ∉ reSpecial := fun h => hm (special_meta c h)
      rw [List.singleton_append]
      generalize escape s = z at ih
      rw [reParse.eq_def]
      split
      · rename_i e; cases e
      · rename_i e; cases e; exact absurd rfl h1
      · rename_i e; simp only [List.cons.injEq] at e; exact absurd e.1 h1
      · rename_i e; cases e; exact absurd rfl h2
      · rename_i e
        cases e
        rw [if_neg h3, ih]
        rfl

/-- C88: any string, special characters or not, is replaced when it is escaped with `re.escape`. -/
theorem C88_escape (rx : Str → Str → Str → Except PyErr Str) (s r : Str) (hs : s ≠ []) (hr : '\\' ∉ r) (content : Str) :
    ∃ u, loadText rx (some [(escape s, r)]) content = .ok u ∧ Replaced s r (readText content) u := by
  have hne : (s.map ReAtom.chr) ≠ [] := by simpa using hs
  refine ⟨_, ?_, reSubF_replaced hs r (readText content).length _ (Nat.le_refl _)⟩
  simp only [loadText, replaceAll, reSub, reParse_escape, if_neg hr, if_neg hne]

/-! ### Line ends -/

theorem readText_cons {c : Char} (hc : c ≠ '\r') (s : Str) : readText (c :: s) = c :: readText s := by
  rw [readText.eq_def]
  split
  · rename_i e; cases e; exact absurd rfl hc
  · rename_i e; cases e; exact absurd rfl hc
  · rename_i e; cases e; rfl
  · rename_i e; cases e

/-- C88: the line ends of the file make no difference: a text is read as it is, with the line ends of Windows or with
carriage returns, and the same replacements are made. -/
theorem C88_newlines (rx : Str → Str → Str → Except PyErr Str) (reps : Option (List (Str × Str))) :
    ∀ (s : Str), '\r' ∉ s → readText s = s ∧ loadText rx reps (crlf s) = loadText rx reps s ∧
      loadText rx reps (cr s) = loadText rx reps s := by
  have key : ∀ (s : Str), '\r' ∉ s → readText s = s ∧ readText (crlf s) = s ∧ readText (cr s) = s := by
    intro s
    induction s with
    | nil => intro _; exact ⟨rfl, rfl, rfl⟩
    | cons c s ih =>
      intro h
      simp only [List.mem_cons, not_or] at h
      obtain ⟨h1, h2, h3⟩ := ih h.2
      have hc : c ≠ '\r' := fun e => h.1 e.symm
      refine ⟨by rw [readText_cons hc, h1], ?_, ?_⟩
      · have e : crlf (c :: s) = (if c = '\n' then ['\r', '\n'] else [c]) ++ crlf s := rfl
        rw [e]
        split
        · rename_i hn
          simp only [List.cons_append, List.nil_append, readText, h2, hn]
        · rw [List.singleton_append, readText_cons hc, h2]
      · have e : cr (c :: s) = (if c = '\n' then '\r' else c) :: cr s := rfl
        rw [e]
        split
        · rename_i hn
          have hh : ∀ x, cr s ≠ '\n' :: x := by
            intro x e
            cases s with
            | nil => cases e
            | cons d s =>
              have e' : (if d = '\n' then '\r' else d) = '\n' := by
                have : cr (d :: s) = (if d = '\n' then '\r' else d) :: cr s := rfl
                rw [this] at e
                exact (List.cons.inj e).1
              split at e'
              · exact absurd e' (by decide)
              · rename_i hd; exact hd e'
          rw [readText.eq_def]
          split
          · rename_i e; simp only [List.cons.injEq, true_and] at e; exact absurd e (hh _)
          · rename_i e; simp only [List.cons.injEq, true_and] at e; rw [← e, h3, hn]
          · rename_i h e; simp only [List.cons.injEq] at e; exact absurd e.1.symm (by simpa using h)
          · rename_i e; cases e
        · rw [readText_cons hc, h3]
  intro s h
  obtain ⟨h1, h2, h3⟩ := key s h
  refine ⟨h1, ?_, ?_⟩
  · cases reps <;> simp only [loadText, h1, h2]
  · cases reps <;> simp only [loadText, h1, h3]

/-! ### Examples and counterexamples -/

/-- The module `re` in the examples; they do not use it. -/
def noRx : Str → Str → Str → Except PyErr Str := fun _ _ _ => .error .typeError

/-- A header that needs replacements: an annotation that is not C and a misspelt type. -/
def exReps : List (Str × Str) := [(c%"@1 ", []), (c%"lnog", c%"long")]

/-- The hypotheses of `C88_replace_partial` hold, and the replaced header is parsed: without the replacements there is
no function `f`. -/
theorem C88_example : (∀ x ∈ exReps, PlainRep x) ∧
    loadText noRx (some exReps) c%"long @1 f(long a);\r\nlnog @1 g;" =
      .ok c%"long f(long a);\nlong g;" ∧
    (fileGet c%"long f(long a);\nlong g;" .functions c%"f").any Option.isSome = true ∧
    (fileGet c%"long @1 f(long a);\nlnog @1 g;" .functions c%"f").any Option.isSome = false := by
  refine ⟨?_, by decide, by decide +kernel, by decide +kernel⟩
  intro x hx
  simp only [exReps, List.mem_cons, List.not_mem_nil, or_false] at hx
  rcases hx with rfl | rfl <;> exact ⟨⟨by decide, by decide⟩, by decide⟩

/-- C88 fails for strings with special characters: `a.b` is also found in `a_b`. -/
theorem C88_counterexample_special (rx : Str → Str → Str → Except PyErr Str) :
    loadText rx (some [(c%"a.b", c%"x")]) c%"int a_b;" = .ok c%"int x;" ∧
    Replaced c%"a.b" c%"x" c%"int a_b;" c%"int a_b;" := by
  refine ⟨by rfl, ?_⟩
  have := reSubF_replaced (s := c%"a.b") (by decide) c%"x" 8 c%"int a_b;" (by decide)
  exact this

/-- Replacements see the result of the ones before them: exchanging two names is impossible. -/
theorem C88_counterexample_exchange (rx : Str → Str → Str → Except PyErr Str) :
    loadText rx (some [(c%"A", c%"B"), (c%"B", c%"A")]) c%"A B" = .ok c%"A A" := by rfl

/-- Other patterns and replacements are left to the module `re`, such as a call with parentheses. -/
theorem C88_counterexample_regex (rx : Str → Str → Str → Except PyErr Str) (t : Str) :
    loadText rx (some [(c%"API(int)", c%"int")]) t = (match rx c%"API(int)" c%"int" (readText t) with
      | .ok s => .ok s | .error e => .error e) := by rfl

end Pyclib
