import Verif.Proof.PPText
import Verif.Props.Preproc
/-! Properties C30, C31: conditions of `#if` and `#elif`. -/
namespace Pyclib
open Spec

theorem fol_map (f : CTok → CTok) (h1 : ∀ t, (f t).isStart = t.isStart) (h2 : ∀ t, (f t).isEnd = t.isEnd)
    (b : Bool) (ts : List CTok) (h : Fol b ts) : Fol b (ts.map f) := by
  induction ts generalizing b with
  | nil => exact h
  | cons t ts ih => exact ⟨by rw [h1]; exact h.1, by rw [h2]; exact ih _ h.2⟩

theorem toks_ids (e : CE) (w : Str) (h : CTok.id w ∈ e.toks) : w ∈ e.ids := by
  induction e with
  | num n => simp [CE.toks] at h
  | id v => simpa [CE.toks, CE.ids] using h
  | defd v f => simp [CE.toks] at h
  | par e ih => simp [CE.toks] at h; exact ih h
  | neg e ih => simp [CE.toks] at h; exact ih h
  | cmp op a b iha ihb =>
    simp [CE.toks] at h
    exact List.mem_append.2 (h.imp iha ihb)
  | arith op a b iha ihb =>
    simp [CE.toks] at h
    exact List.mem_append.2 (h.imp iha ihb)
  | and a b iha ihb =>
    simp [CE.toks] at h
    exact List.mem_append.2 (h.imp iha ihb)
  | or a b iha ihb =>
    simp [CE.toks] at h
    exact List.mem_append.2 (h.imp iha ihb)

/-- Evaluation of a text is evaluation of its tokens. -/
theorem evalPP_layout (pyo : Str → Option Bool) (l : List (Nat × CTok)) (k : Nat)
    (hf : Fol false (l.map (·.2))) (hok : ∀ p ∈ l, TokOk p.2) (nd : NoDefd l) (d : Str → Bool) (v : Int)
    (hv : evalToks (l.map fun p => tokPy (fun _ => 0) d p.2) = some v) :
    evalPP pyo (layout l ++ blanks k) = .ok (decide (v ≠ 0)) := by
  have h1 : transformPP (layout l ++ blanks k) = strip (outLayout l ++ blanks k) := by
    unfold transformPP
    rw [transform_layout l k false hf hok nd _ (Nat.lt_succ_self _)]
  have h2 : pyTok ((strip (outLayout l ++ blanks k)).length + 1) (strip (outLayout l ++ blanks k)) =
      some (l.map fun p => tokPy (fun _ => 0) d p.2) := by
    rw [pyTok_strip _ (outLayout_spaces l k hok nd) _ _ (Nat.lt_succ_self _) (Nat.lt_succ_self _)]
    exact pyTok_layout l k false hf hok nd d _ (Nat.lt_succ_self _)
  have h3 : hasCall (l.map fun p => tokPy (fun _ => 0) d p.2) = false := by
    have := hasCall_fol (fun _ => 0) d _ _ hf
    simpa [List.map_map, Function.comp_def] using this
  unfold evalPP pyEval
  rw [h1, h2]
  simp only [h3, hv]
  simp [bne, BEq.beq]

/-- **C30.** Evaluation of a condition in which nothing is left to expand: for every expression of the
fragment, laid out with any blanks, the result is that of C, remaining identifiers counting as 0. -/
theorem C30_eval_partial (pyo : Str → Option Bool) (e : CE) (hf : e.Frag) (hg : e.Grammar)
    (l : List (Nat × CTok)) (k : Nat) (hl : l.map (·.2) = e.toks) (nd : NoDefd l) :
    evalPP pyo (layout l ++ blanks k) =
      .ok (decide (e.value (fun _ => 0) (fun _ => false) ≠ 0)) := by
  have h1 : Fol false (l.map (·.2)) := by
    rw [hl]; simpa using fol_toks e [] rfl
  have h2 : ∀ p ∈ l, TokOk p.2 := fun p hp =>
    toks_ok e hf hg _ (by rw [← hl]; exact List.mem_map_of_mem hp)
  have h3 := evalToks_ptoks (fun _ => 0) (fun _ => false) e hf hg
  have h4 := evalPP_layout pyo l k h1 h2 nd (fun _ => false) _ (by
    rw [← h3, ptoks, ← hl, List.map_map]; rfl)
  rw [h4]
  have := (pyVal_spec (fun _ => 0) (fun _ => false) e hf).1
  simp only [Except.ok.injEq, decide_eq_decide]
  exact not_congr this

/-- **C30.** A condition of the fragment, laid out with any blanks, is true exactly when C says so, for
every macro table: `defined` tells whether the name is a macro, an identifier defined as a decimal
number has that value, an identifier that is not a macro counts as 0.  Missing for the full claim:
`!=`, chained comparisons, `!` as an operand of a comparison, the value of `&&`/`||` used as a number
(all refuted below), and macros with other bodies (`C30_eval_partial` covers them after expansion). -/
theorem C30_agrees_partial (orc : Str → List Str → Option Str) (pyo : Str → Option Bool) (env : MEnv)
    (e : CE) (hf : e.Frag) (hg : e.Grammar) (l : List (Nat × CTok)) (k : Nat)
    (hl : l.map (·.2) = e.toks)
    (hnum : ∀ n, dget env.macros (natDigits n) = none ∧ dget env.fnmacros (natDigits n) = none)
    (mv : Str → Option Nat)
    (hid : ∀ w ∈ e.ids, dget env.macros w = (mv w).map natDigits ∧
      (mv w = none → dget env.fnmacros w = none)) :
    condE orc pyo env (layout l ++ blanks k) =
      .ok (decide (e.value (fun w => (mv w).getD 0)
        (fun w => (dget env.macros w).isSome || (dget env.fnmacros w).isSome) ≠ 0)) := by
  have h1 : Fol false (l.map (·.2)) := by
    rw [hl]; simpa using fol_toks e [] rfl
  have h2 : ∀ p ∈ l, TokOk p.2 := fun p hp =>
    toks_ok e hf hg _ (by rw [← hl]; exact List.mem_map_of_mem hp)
  have hd : isDefined env = fun w => (dget env.macros w).isSome || (dget env.fnmacros w).isSome := rfl
  -- step 1
  have s1 : substDefined env (layout l ++ blanks k) =
      layout (l.map fun p => (p.1, stepD (isDefined env) p.2)) ++ blanks k :=
    defined_layout _ l k false h1 h2 false (fun _ => rfl) _ (Nat.lt_succ_self _)
  have f1 : Fol false ((l.map fun p => (p.1, stepD (isDefined env) p.2)).map (·.2)) := by
    have := fol_map (stepD (isDefined env)) (by intro t; cases t <;> rfl) (by intro t; cases t <;> rfl) _ _ h1
    simpa [List.map_map, Function.comp_def] using this
  have o1 : ∀ p ∈ l.map (fun p => (p.1, stepD (isDefined env) p.2)), TokOk p.2 := by
    intro p hp
    obtain ⟨q, hq, rfl⟩ := List.mem_map.1 hp
    have := h2 q hq
    revert this
    cases q.2 <;> exact fun h => by first | exact h | trivial
  have n1 : NoDefd (l.map fun p => (p.1, stepD (isDefined env) p.2)) := by
    intro p hp w f
    obtain ⟨q, hq, rfl⟩ := List.mem_map.1 hp
    cases h : q.2 <;> simp [stepD, h]
  -- step 2
  have s2 := expand_layout orc env mv (l.map fun p => (p.1, stepD (isDefined env) p.2)) k f1 o1 n1 hnum (by
    intro p hp w he
    obtain ⟨q, hq, rfl⟩ := List.mem_map.1 hp
    apply hid w
    apply toks_ids
    rw [← hl]
    cases h : q.2 with
    | id v =>
      simp [stepD, h] at he
      exact List.mem_map.2 ⟨q, hq, by rw [h, he]⟩
    | _ => simp [stepD, h] at he)
  rw [List.map_map] at s2
  have f2 : Fol false ((l.map ((fun p => (p.1, stepM mv p.2)) ∘ fun p => (p.1, stepD (isDefined env) p.2))).map
      (·.2)) := by
    have := fol_map (stepM mv) (by
      intro t; cases t <;> first | rfl | (simp only [stepM]; split <;> rfl)) (by
      intro t; cases t <;> first | rfl | (simp only [stepM]; split <;> rfl)) _ _ f1
    simpa [List.map_map, Function.comp_def] using this
  have o2 : ∀ p ∈ l.map ((fun p => (p.1, stepM mv p.2)) ∘ fun p => (p.1, stepD (isDefined env) p.2)),
      TokOk p.2 := by
    intro p hp
    obtain ⟨q, hq, rfl⟩ := List.mem_map.1 hp
    have := o1 _ (List.mem_map_of_mem hq)
    revert this
    simp only [Function.comp]
    cases stepD (isDefined env) q.2 with
    | id w =>
      intro h
      simp only [stepM]
      split
      · trivial
      · exact h
    | _ => exact fun h => by first | exact h | trivial
  have n2 : NoDefd (l.map ((fun p => (p.1, stepM mv p.2)) ∘ fun p => (p.1, stepD (isDefined env) p.2))) := by
    intro p hp w f
    obtain ⟨q, hq, rfl⟩ := List.mem_map.1 hp
    simp only [Function.comp]
    cases h : q.2 <;> simp [stepD, stepM]
    split <;> simp
  have h3 := evalToks_ptoks (fun w => (mv w).getD 0) (isDefined env) e hf hg
  unfold condE
  rw [s1, s2, evalPP_layout pyo _ k f2 o2 n2 (isDefined env) (pyVal (fun w => (mv w).getD 0) (isDefined env) e) (by
    rw [← h3, ptoks, ← hl, List.map_map, List.map_map]
    congr 1
    apply List.map_congr_left
    intro q _
    simp only [Function.comp]
    cases q.2 with
    | id w => simp only [stepD, stepM, tokPy]; cases mv w <;> rfl
    | _ => rfl)]
  have := (pyVal_spec (fun w => (mv w).getD 0) (isDefined env) e hf).1
  simp only [Except.ok.injEq, decide_eq_decide, ← hd]
  exact not_congr this

/-- C30: only the word `defined` is the operator; words that contain it, with letters, digits, underscores or dollar
signs, are left alone. -/
theorem C30_keyword (env : MEnv) (w s : Str) (h : ∀ c ∈ w, c.isAlphanum = true ∨ c = '_' ∨ c = '$') (hd : w ≠ c%"defined") :
    substDefined env (w ++ ' ' :: s) = w ++ ' ' :: substDefined env s := by
  have hk : ∀ c ∈ w, isKwChar c = true := by
    intro c hc
    rcases h c hc with h | h | h <;> simp [isKwChar, isWordC, h]
  have e : (w ++ ' ' :: s).length + 1 = ((s.length + 1) + 1) + w.length := by simp; omega
  unfold substDefined
  rw [e]
  by_cases hw : w = []
  · subst hw
    simp only [List.nil_append, List.length_nil, Nat.add_zero]
    rw [definedLoop_nonkw _ _ _ _ _ (by decide)]
  · rw [definedLoop_kw _ w hw hk hd _ _ (by intro c hc; cases hc; decide), definedLoop_nonkw _ _ _ _ _ (by decide)]

/-- `defined` next to a dollar sign is part of another word. -/
example : substDefined ⟨[(c%"X", c%"1")], []⟩ c%"$defined X" = c%"$defined X" ∧
    substDefined ⟨[(c%"X", c%"1")], []⟩ c%"a defined X" = c%"a 1" := ⟨rfl, rfl⟩

/-- Numbers are not identifiers: the hypothesis on number macros of `C30_agrees_partial` holds for
every table whose names are identifiers. -/
theorem C30_numbers (α : Type) (d : Dict Str α) (h : ∀ k v, dget d k = some v → IsIdent k) (n : Nat) :
    dget d (natDigits n) = none := by
  cases hd : dget d (natDigits n) with
  | none => rfl
  | some v =>
    obtain ⟨c, r, e, hc, _⟩ := h _ _ hd
    have := natDigits_digit (n := n) (c := c) (by rw [e]; simp)
    rw [(digit_facts this).2.2.2.2.2.1] at hc
    cases hc

/-- Non-vacuity: `!defined( B) || (B +2 >= 5&& !C)` with `B` defined as 3 and `C` not a macro... -/
def demoCond : CE :=
  .or (.neg (.defd c%"B" (.paren 0 1 0)))
    (.par (.and (.cmp .ge (.arith .add (.id c%"B") (.num 2)) (.num 5)) (.neg (.id c%"C"))))

/-- ... and its text. -/
def demoLayout : List (Nat × CTok) :=
  [(1, .bang), (0, .defd c%"B" (.paren 0 1 0)), (1, .or), (1, .lp), (0, .id c%"B"), (1, .arith .add),
    (0, .num 2), (1, .cmp .ge), (1, .num 5), (0, .and), (1, .bang), (0, .id c%"C"), (0, .rp)]

example : layout demoLayout ++ blanks 1 = c%" !defined( B) || (B +2 >= 5&& !C) " := by rfl
example : demoCond.Frag ∧ demoLayout.map (·.2) = demoCond.toks := by
  refine ⟨?_, rfl⟩
  simp [demoCond, CE.Frag, CE.level, CE.exact]
example : demoCond.Grammar := by
  simp only [demoCond, CE.Grammar, CE.level, true_and, and_true]
  refine ⟨by decide, ⟨by decide, ?_⟩, by decide, by decide, ⟨by decide, by decide, ⟨by decide, by decide, ?_⟩⟩,
    by decide, ?_⟩
  · exact ⟨'B', [], rfl, rfl, by simp⟩
  · exact ⟨⟨'B', [], rfl, rfl, by simp⟩, by decide⟩
  · exact ⟨⟨'C', [], rfl, rfl, by simp⟩, by decide⟩
example (orc pyo) : condE orc pyo ⟨[(c%"B", c%"3")], []⟩ c%" !defined( B) || (B +2 >= 5&& !C) " = .ok true := by
  rfl

/-! Refutations of the full claim: each condition lies in the fragment of C described by C30, with the
value given by C next to the answer of pyclibrary. -/

/-- `!=` is never true. -/
theorem C30_counterexample_ne (orc pyo) :
    condE orc pyo ⟨[], []⟩ c%"1 != 2" = .ok false ∧
      (CE.cmp .ne (.num 1) (.num 2)).value (fun _ => 0) (fun _ => false) = 1 ∧
      (CE.cmp .ne (.num 1) (.num 2)).Grammar := by
  refine ⟨rfl, rfl, ?_⟩
  simp [CE.Grammar, CE.level]

/-- Comparisons chain as in Python: `3 > 2 > 1` is `(3 > 2) > 1`, false, in C. -/
theorem C30_counterexample_chain (orc pyo) :
    condE orc pyo ⟨[], []⟩ c%"3 > 2 > 1" = .ok true ∧
      (CE.cmp .gt (.cmp .gt (.num 3) (.num 2)) (.num 1)).value (fun _ => 0) (fun _ => false) = 0 ∧
      (CE.cmp .gt (.cmp .gt (.num 3) (.num 2)) (.num 1)).Grammar := by
  refine ⟨rfl, rfl, ?_⟩
  simp [CE.Grammar, CE.level]

/-- `!` binds weaker than comparisons in Python: `!0 == 2` is `(!0) == 2`, false, in C. -/
theorem C30_counterexample_not_left (orc pyo) :
    condE orc pyo ⟨[], []⟩ c%"!0 == 2" = .ok true ∧
      (CE.cmp .eq (.neg (.num 0)) (.num 2)).value (fun _ => 0) (fun _ => false) = 0 ∧
      (CE.cmp .eq (.neg (.num 0)) (.num 2)).Grammar := by
  refine ⟨rfl, rfl, ?_⟩
  simp [CE.Grammar, CE.level]

/-- `0 == !1` is true in C and a syntax error in Python. -/
theorem C30_counterexample_not_right (orc pyo) :
    condE orc pyo ⟨[], []⟩ c%"0 == !1" = .ok false ∧
      (CE.cmp .eq (.num 0) (.neg (.num 1))).value (fun _ => 0) (fun _ => false) = 1 ∧
      (CE.cmp .eq (.num 0) (.neg (.num 1))).Grammar := by
  refine ⟨rfl, rfl, ?_⟩
  simp [CE.Grammar, CE.level]

/-- `(2 || 0) == 1` is true in C; Python's `or` gives 2. -/
theorem C30_counterexample_or_value (orc pyo) :
    condE orc pyo ⟨[], []⟩ c%"(2 || 0) == 1" = .ok false ∧
      (CE.cmp .eq (.par (.or (.num 2) (.num 0))) (.num 1)).value (fun _ => 0) (fun _ => false) = 1 ∧
      (CE.cmp .eq (.par (.or (.num 2) (.num 0))) (.num 1)).Grammar := by
  refine ⟨rfl, rfl, ?_⟩
  simp [CE.Grammar, CE.level]

/-- Integer constants of C that are not plain decimals: hexadecimal, suffixed and octal numbers are
misread or rejected (`0x10` becomes `00`, `1L` becomes `10`, `017` is a syntax error). -/
theorem C30_counterexample_constants (orc pyo) :
    condE orc pyo ⟨[], []⟩ c%"0x10" = .ok false ∧ condE orc pyo ⟨[], []⟩ c%"1L == 1" = .ok false ∧
      condE orc pyo ⟨[], []⟩ c%"017" = .ok false := by
  refine ⟨rfl, rfl, rfl⟩

/-- **C31.** `eval_preprocessor_expr` gives `True` or `False` for every text, whatever Python's `eval`
does outside the modelled fragment. -/
theorem C31_total (pyo : Str → Option Bool) (s : Str) : ∃ b, evalPP pyo s = .ok b := by
  unfold evalPP
  split
  · exact ⟨_, rfl⟩
  · exact ⟨_, rfl⟩

/-- **C31.** A text Python cannot evaluate counts as false. -/
theorem C31_invalid (pyo : Str → Option Bool) (s : Str) (e : PyErr)
    (h : pyEval pyo (transformPP s) = .error e) : evalPP pyo s = .ok false := by
  unfold evalPP
  rw [h]

/-- **C31.** A text Python can evaluate counts as what Python says. -/
theorem C31_valid (pyo : Str → Option Bool) (s : Str) (b : Bool)
    (h : pyEval pyo (transformPP s) = .ok b) : evalPP pyo s = .ok b := by
  unfold evalPP
  rw [h]

/-- **C31.** The same for a whole condition, from the text after `#if` on. -/
theorem C31_condition (orc : Str → List Str → Option Str) (pyo : Str → Option Bool) (env : MEnv) (s : Str) :
    ∃ b, condE orc pyo env s = .ok b := C31_total _ _

/-- Non-vacuity: an incomplete expression, an empty one, and one outside the fragment that raises. -/
example (pyo) : evalPP pyo c%"1 &&" = .ok false ∧ evalPP pyo [] = .ok false := ⟨rfl, rfl⟩
example (pyo : Str → Option Bool) (h : pyo c%"0(1)" = none) : evalPP pyo c%"F(1)" = .ok false := by
  have : transformPP c%"F(1)" = c%"0(1)" := rfl
  unfold evalPP pyEval
  rw [this]
  have : pyTok ((c%"0(1)" : Str).length + 1) c%"0(1)" = some [.num 0, .lp, .num 1, .rp] := rfl
  rw [this]
  simp [hasCall, h]

/-- **C31** in `preprocess`: with the macro semantics of the code, a conditional group of lines is
selected as C prescribes (C17) with conditions evaluated by `eval_preprocessor_expr`; a condition never
makes `preprocess` fail. -/
theorem C31_preprocess (orc : Str → List Str → Option Str) (pyo : Str → Option Bool) (env : MEnv)
    (b : Block) (hb : b.Ok) (hn : b.NoPragma) :
    ∃ s' os, ppRun (macroSem orc pyo) 0 (PPState.init env) b.lines = .ok (s', os) ∧
      s'.env = (b.run (macroSem orc pyo) env).1 ∧ codes os = b.text (macroSem orc pyo) env := by
  obtain ⟨s', os, h⟩ := C17_total (macroSem orc pyo) env b hb hn
  obtain ⟨h1, h2, _⟩ := C17_selects (macroSem orc pyo) env b hb h
  exact ⟨s', os, h, h1, h2⟩

end Pyclib
