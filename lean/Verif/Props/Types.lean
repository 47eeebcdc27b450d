import Verif.Proof.Types
/-
C01, C02, C03 (typedef part), C04: typedef resolution and the function-type conversion.
-/
set_option linter.unusedSimpArgs false
namespace Pyclib
open Spec

/-- Every typedef in the map was built by `Type.__init__`. -/
def MapMatch (tm : Dict Str CType) : Prop := ∀ s pt, dget tm s = some pt → QualsMatch pt

/-! ### C01 -/

/-- C01 (termination): the recursion depth `number of typedefs + 1` always suffices, for every type
map (cyclic or not) and every type. -/
theorem C01_terminates (cfg : Cfg) (tm : Dict Str CType) (t : CType) :
    evalType cfg tm t ≠ .error .recursionError ∧
    ∀ n, tm.length + 1 ≤ n → evalAux cfg tm n t [] = evalType cfg tm t := by
  have h0 : evalType cfg tm t ≠ .error .recursionError :=
    evalAux_fuel _ _ _ (usedInv_nil _ _ _) (by simp)
  refine ⟨h0, ?_⟩
  intro n hn
  induction n with
  | zero => omega
  | succ n ih =>
    by_cases h : n + 1 = tm.length + 1
    · rw [h]; rfl
    · have ih' := ih (by omega)
      rw [evalAux_mono n t [] (by rw [ih']; exact h0), ih']

/-- C01 (exactness): the result is the resolution of the type, minus the redundant word `signed`. -/
theorem C01_result (cfg : Cfg) (tm : Dict Str CType) (t r : CType) (hm : MapMatch tm)
    (ht : QualsMatch t) :
    evalType cfg tm t = .ok r ↔
      ∃ b, Resolves cfg tm t b ∧ r = ⟨dropSigned b.spec, b.mods, b.quals⟩ := by
  constructor
  · intro h
    obtain ⟨b, h1, h2, _⟩ := evalAux_sound hm _ _ _ _ ht h
    exact ⟨b, h1, h2⟩
  · rintro ⟨b, h1, rfl⟩
    exact evalAux_complete hm _ _ _ _ ht (usedInv_nil _ _ _) (by simp) h1

/-- C01 (the word `signed`): on every plain type name, dropping `signed` keeps exactly the other
words, in order, without surrounding white space. -/
theorem C01_signed (s : Str) (ws : List Str) (hp : PlainName s) (hw : WordsOf s ws) :
    WordsOf (dropSigned s) (ws.filter (· ≠ c%"signed")) ∧ strip (dropSigned s) = dropSigned s := by
  refine ⟨?_, strip_strip _⟩
  rw [← splitWs_iff, splitWs_dropSigned s hp, (splitWs_iff _ _).2 hw]

/-- C01 (success): a type resolves exactly when its typedef chain reaches a fundamental name. -/
theorem C01_ok_iff (cfg : Cfg) (tm : Dict Str CType) (t : CType) (hm : MapMatch tm)
    (ht : QualsMatch t) (hq : QualsMergeable tm t) :
    (∃ r, evalType cfg tm t = .ok r) ↔ ∃ f, Reaches cfg tm t.spec f ∧ Fundamental cfg f := by
  constructor
  · rintro ⟨r, h⟩
    obtain ⟨b, h1, _⟩ := (C01_result cfg tm t r hm ht).1 h
    exact ⟨_, Resolves.reaches' h1⟩
  · rintro ⟨f, h1, h2⟩
    cases h : evalType cfg tm t with
    | ok r => exact ⟨r, rfl⟩
    | error e =>
      exfalso
      obtain ⟨_, hc⟩ := evalAux_error hm _ _ _ ht hq (usedInv_nil _ _ _) (by simp) e h
      rcases hc with ⟨c, c', h3, h4, h5⟩ | ⟨u, h3, h4, h5⟩
      · exact cycle_no_end (no_step_of_fund h2) h4 h5 (reaches_end (no_step_of_fund h2) h1 h3)
      · have h6 := reaches_end (no_step_of_fund h2) h1 h3
        cases h6 with
        | refl => exact h4 h2
        | step hs _ => exact no_step_of_unknown h5 _ hs

/-- C01 (failure): the only exception is `DefinitionError`, raised exactly when the chain is cyclic
or ends at an unknown name. -/
theorem C01_error_iff (cfg : Cfg) (tm : Dict Str CType) (t : CType) (hm : MapMatch tm)
    (ht : QualsMatch t) (hq : QualsMergeable tm t) (e : PyErr) :
    evalType cfg tm t = .error e ↔
      e = .definitionError ∧ (Cyclic cfg tm t.spec ∨ Unknown cfg tm t.spec) := by
  constructor
  · exact evalAux_error hm _ _ _ ht hq (usedInv_nil _ _ _) (by simp) e
  · rintro ⟨rfl, hc⟩
    cases h : evalType cfg tm t with
    | error e =>
      rw [(evalAux_error hm _ _ _ ht hq (usedInv_nil _ _ _) (by simp) e h).1]
    | ok r =>
      exfalso
      obtain ⟨f, h1, h2⟩ := (C01_ok_iff cfg tm t hm ht hq).1 ⟨r, h⟩
      rcases hc with ⟨c, c', h3, h4, h5⟩ | ⟨u, h3, h4, h5⟩
      · exact cycle_no_end (no_step_of_fund h2) h4 h5 (reaches_end (no_step_of_fund h2) h1 h3)
      · have h6 := reaches_end (no_step_of_fund h2) h1 h3
        cases h6 with
        | refl => exact h4 h2
        | step hs _ => exact no_step_of_unknown h5 _ hs

/-- A configuration and a map used in the examples: `typedef signed int *A; typedef A B[3];
typedef C C; typedef Z D;`. -/
def exCfg : Cfg := ⟨true, false, []⟩
def exMap : Dict Str CType :=
  [(c%"A", ⟨c%"signed int", [.sym c%"*"], [some [c%"const"], some []]⟩),
   (c%"B", ⟨c%"A", [.arr [some 3]], [some [], some []]⟩),
   (c%"C", ⟨c%"C", [], [some []]⟩),
   (c%"D", ⟨c%"Z", [], [some []]⟩)]

-- `volatile B x` is `const int *volatile x[3]`
example : evalType exCfg exMap ⟨c%"B", [], [some [c%"volatile"]]⟩ =
    .ok ⟨c%"int", [.sym c%"*", .arr [some 3]], [some [c%"const"], some [], some [c%"volatile"]]⟩ := by
  rfl
example : evalType exCfg exMap ⟨c%"C", [.sym c%"*"], [some [], some []]⟩ = .error .definitionError := by rfl
example : evalType exCfg exMap ⟨c%"D", [.sym c%"*"], [some [], some []]⟩ = .error .definitionError := by rfl

/-- Boolean versions of the hypotheses, for the examples. -/
theorem mapMatch_of_all {tm : Dict Str CType}
    (h : tm.all (fun p => p.2.quals.length == 1 + p.2.mods.length) = true) : MapMatch tm := by
  intro s pt hg
  have := List.all_eq_true.1 h _ (dget_some_mem hg)
  simpa [QualsMatch] using this

theorem mergeable_of_all {tm : Dict Str CType} {t : CType}
    (h0 : t.quals.head?.all (·.isSome) = true)
    (h : tm.all (fun p => p.2.quals.getLast?.all (·.isSome) && p.2.quals.head?.all (·.isSome)) = true) :
    QualsMergeable tm t := by
  refine ⟨?_, ?_⟩
  · intro q hq e; subst e
    simp [Option.mem_def.1 hq] at h0
  · intro s pt hg
    have := List.all_eq_true.1 h _ (dget_some_mem hg)
    simp only [Bool.and_eq_true] at this
    refine ⟨?_, ?_⟩
    · intro q hq e; subst e; simp [Option.mem_def.1 hq] at this
    · intro q hq e; subst e; simp [Option.mem_def.1 hq] at this

-- the hypotheses of C01_* hold for this map
example : MapMatch exMap ∧ QualsMergeable exMap ⟨c%"B", [], [some [c%"volatile"]]⟩ :=
  ⟨mapMatch_of_all rfl, mergeable_of_all rfl rfl⟩

/-- Why `QualsMergeable` is needed: `typedef int __cdecl T; T x;` makes resolution raise `TypeError`
(the calling convention is stored with qualifier `None`, and `None + ()` is attempted). -/
theorem C01_callconv_typeError (cfg : Cfg) :
    evalType cfg [(c%"T", ⟨c%"int", [.sym c%"__cdecl"], [some [], none]⟩)] ⟨c%"T", [], [some []]⟩ =
      .error .typeError ∨ c%"T" ∈ cfg.extraTypes := by
  by_cases h : c%"T" ∈ cfg.extraTypes
  · exact Or.inr h
  · left
    have hf : isFund cfg c%"T" = false := by
      cases cfg with
      | mk a b e =>
        cases a <;> cases b <;>
          simp [isFund, startsWith, splitWs, splitWsAux, isSpaceC, fundNames, numTypes, nonnumTypes,
            sizeModifiers, signModifiers, c99IntTypes] <;> exact h
    simp [evalType, evalAux, hf, dget, joinQuals, qualAdd, bind, Except.bind]

/-! ### C02 -/

/-- Type names delivered by the grammar: plain words, or a tag keyword followed by one name. -/
def ParserName (cfg : Cfg) (s : Str) : Prop :=
  PlainName s ∧ ((∃ ws, WordsOf s ws ∧ ∀ w ∈ ws, FundWord cfg w) ∨
  ∃ kw tag, kw ∈ [c%"struct ", c%"union ", c%"enum "] ∧ s = kw ++ tag ∧
    tag ≠ [] ∧ (∀ c ∈ tag, isSpaceC c = false) ∧ tag ≠ c%"signed")

theorem dropSigned_tag (kw tag : Str) (hk : kw ∈ [c%"struct ", c%"union ", c%"enum "])
    (ht : ∀ c ∈ tag, isWordC c = true) (hne : tag ≠ []) (hs : tag ≠ c%"signed") :
    dropSigned (kw ++ tag) = kw ++ tag := by
  have hgen : ∀ k : Str, (∀ x ∈ k, isWordC x = true) → rs k = k → k ≠ [] →
      dropSigned (k ++ ' ' :: tag) = k ++ ' ' :: tag := by
    intro k hk1 hk2 hk3
    have hg : GoodChunks k [(' ', tag)] := ⟨hk1, by simpa using ⟨by decide, ht⟩⟩
    have h1 := removeSigned_unchunk k [(' ', tag)] hg
    have h2 : rs tag = tag := by simp [rs, hs]
    simp only [unchunk, List.map_cons, List.map_nil, hk2, h2] at h1
    rw [dropSigned, h1, strip]
    have hl : lstrip (k ++ ' ' :: tag) = k ++ ' ' :: tag := by
      cases k with
      | nil => exact absurd rfl hk3
      | cons c k =>
        have := isWordC_not_space (hk1 c (by simp))
        simp [lstrip, List.dropWhile_cons, this]
    rw [hl, rstrip]
    rcases List.eq_nil_or_concat tag with rfl | ⟨l, x, rfl⟩
    · exact absurd rfl hne
    · have := isWordC_not_space (ht x (by simp))
      simp [List.dropWhile_cons, this]
  simp only [List.mem_cons, List.not_mem_nil, or_false] at hk
  rcases hk with rfl | rfl | rfl
  · exact hgen c%"struct" (by decide) (by decide) (by simp)
  · exact hgen c%"union" (by decide) (by decide) (by simp)
  · exact hgen c%"enum" (by decide) (by decide) (by simp)

theorem fundamental_dropSigned (cfg : Cfg) (s : Str) (h : ParserName cfg s) :
    Fundamental cfg (dropSigned s) := by
  obtain ⟨hp, ⟨ws, hw, hf⟩ | ⟨kw, tag, hk, rfl, hne, hsp, hs⟩⟩ := h
  · exact Or.inr (Or.inr (Or.inr ⟨_, (C01_signed s ws hp hw).1, fun w hm => hf w (List.mem_filter.1 hm).1⟩))
  · rw [dropSigned_tag kw tag hk ?_ hne hs]
    · simp only [List.mem_cons, List.not_mem_nil, or_false] at hk
      rcases hk with rfl | rfl | rfl
      · exact Or.inl ⟨_, rfl⟩
      · exact Or.inr (Or.inl ⟨_, rfl⟩)
      · exact Or.inr (Or.inr (Or.inl ⟨_, rfl⟩))
    · intro c hc
      rcases hp c (by simp [hc]) with h | h
      · exact h
      · rw [hsp c hc] at h; cases h

/-- C02: the resolved type is fundamental and resolving it again, with any type map, returns it
unchanged; for every fundamental name that the parser itself produces. -/
theorem C02_stable (cfg : Cfg) (tm tm' : Dict Str CType) (t r : CType) (hm : MapMatch tm)
    (ht : QualsMatch t) (hn : ∀ f, Reaches cfg tm t.spec f → Fundamental cfg f → ParserName cfg f)
    (h : evalType cfg tm t = .ok r) :
    Fundamental cfg r.spec ∧ evalType cfg tm' r = .ok r := by
  obtain ⟨b, h1, rfl, hq⟩ := evalAux_sound hm _ _ _ _ ht h
  obtain ⟨h2, h3⟩ := Resolves.reaches' h1
  have hf : Fundamental cfg (dropSigned b.spec) := fundamental_dropSigned cfg _ (hn _ h2 h3)
  refine ⟨hf, ?_⟩
  show evalAux _ _ _ _ _ = _
  rw [evalAux, if_pos ((isFund_iff _ _).2 hf)]
  simp only [dropSigned_idem]
  exact mkType_some_ok hq

/-- C02 without any condition on names: whenever the result is fundamental, it is a fixed point. -/
theorem C02_fixpoint (cfg : Cfg) (tm tm' : Dict Str CType) (t r : CType) (hm : MapMatch tm)
    (ht : QualsMatch t) (h : evalType cfg tm t = .ok r) (hf : Fundamental cfg r.spec) :
    evalType cfg tm' r = .ok r := by
  obtain ⟨b, h1, rfl, hq⟩ := evalAux_sound hm _ _ _ _ ht h
  show evalAux _ _ _ _ _ = _
  rw [evalAux, if_pos ((isFund_iff _ _).2 hf)]
  simp only [dropSigned_idem]
  exact mkType_some_ok hq

-- a case meeting the hypotheses of C02: `B` of `exMap` reaches only `signed int`
example : ParserName exCfg c%"signed int" := by
  refine ⟨by unfold PlainName; decide, Or.inl ⟨[c%"signed", c%"int"], ?_, ?_⟩⟩
  · rw [← splitWs_iff]; rfl
  · intro w hw
    rw [fundWord_iff]; revert hw; revert w; decide
example : evalType exCfg [] ⟨c%"int", [.sym c%"*", .arr [some 3]], [some [c%"const"], some [], some [c%"volatile"]]⟩ =
    .ok ⟨c%"int", [.sym c%"*", .arr [some 3]], [some [c%"const"], some [], some [c%"volatile"]]⟩ := by rfl
-- a tag
example : ParserName exCfg c%"struct point" :=
  ⟨by unfold PlainName; decide, Or.inr ⟨c%"struct ", c%"point", by decide, by decide, by decide, by decide, by decide⟩⟩

/-- The bare word `signed` resolves to the empty name, which counts as fundamental. -/
theorem C02_signed_empty (cfg : Cfg) (tm : Dict Str CType) :
    evalType cfg tm ⟨c%"signed", [], [some []]⟩ = .ok ⟨[], [], [some []]⟩ := by
  have hf : isFund cfg c%"signed" = true := by
    simp [isFund, startsWith, splitWs, splitWsAux, isSpaceC, fundNames, signModifiers]
  have hd : dropSigned c%"signed" = [] := by rfl
  simp [evalType, evalAux, hf, hd, mkType]

/-- `long signed int` resolves to `long  int` (two blanks). -/
theorem C02_double_blank : dropSigned c%"long signed int" = c%"long  int" := by rfl

/-! ### C03 (resolution and compatibility conversion; declarators are in `Props.Decl`) -/

/-- C03: resolution keeps one qualifier group per level and never raises `ValueError`. -/
theorem C03_eval (cfg : Cfg) (tm : Dict Str CType) (t : CType) (hm : MapMatch tm) (ht : QualsMatch t) :
    evalType cfg tm t ≠ .error .valueError ∧ ∀ r, evalType cfg tm t = .ok r → QualsMatch r := by
  refine ⟨?_, ?_⟩
  · have : ∀ n t used, QualsMatch t → evalAux cfg tm n t used ≠ .error .valueError := by
      intro n
      induction n with
      | zero => intro t used _; simp [evalAux]
      | succ n ih =>
        intro t used ht
        rw [evalAux]
        split
        · rw [mkType_some_ok ht]; simp
        · split
          · simp
          · split
            · simp
            · rename_i pt hg
              intro h
              cases hq : joinQuals pt.quals t.quals with
              | error e =>
                simp [hq, bind, Except.bind] at h
                rcases joinQuals_err hq with rfl | rfl <;> cases h
              | ok q =>
                obtain ⟨qs, a, b, rest, h1, h2, rfl⟩ := joinQuals_ok.1 hq
                have hpt := hm _ _ hg
                have hq' : QualsMatch ⟨pt.spec, pt.mods ++ t.mods, qs ++ some (a ++ b) :: rest⟩ :=
                  splice_qualsMatch hpt ht ⟨qs, a, b, rest, h1, h2, rfl⟩
                simp only [hq, bind, Except.bind] at h
                rw [mkType_some_ok hq'] at h
                exact ih _ _ hq' h
    exact this _ _ _ ht
  · intro r h
    obtain ⟨b, h1, rfl, hq⟩ := evalAux_sound hm _ _ _ _ ht h
    exact hq

/-- One qualifier group per level, for types after `add_compatibility_hack`. -/
def HQualsMatch : HType → Prop
  | .plain t => QualsMatch t
  | .func r _ q => QualsMatch r ∧ q.length = 2

/-- C03: neither compatibility conversion ever raises, and both keep one group per level. -/
theorem C03_hack (t : CType) (ht : QualsMatch t) :
    (∃ h, addHack t = .ok h ∧ HQualsMatch h) ∧
    ∀ h, HQualsMatch h → ∃ u, removeHack h = .ok u ∧ QualsMatch u := by
  constructor
  · unfold addHack
    split
    · rename_i ps hps
      obtain ⟨ms, hms⟩ := List.getLast?_eq_some_iff.1 hps
      have hl : t.quals.dropLast.length = 1 + t.mods.dropLast.length := by
        simp only [QualsMatch, hms, List.length_append, List.length_cons, List.length_nil] at ht
        simp [hms, ht]; omega
      rw [mkType_some_ok hl]
      cases hq : t.quals.getLast? with
      | none =>
        have : t.quals = [] := by simpa using hq
        simp [QualsMatch, this] at ht; omega
      | some q => exact ⟨_, rfl, hl, rfl⟩
    · exact ⟨_, rfl, ht⟩
  · intro h hh
    cases h with
    | plain t => exact ⟨t, rfl, hh⟩
    | func r ps q =>
      refine ⟨⟨r.spec, r.mods ++ [.fn ps], List.replicate (1 + (r.mods ++ [CMod.fn ps]).length) (some [])⟩, ?_, ?_⟩
      · simp [removeHack, mkType]
      · simp [QualsMatch]

-- a function type meeting the hypothesis
example : QualsMatch ⟨c%"int", [.sym c%"*", .fn []], [some [c%"const"], some [], some []]⟩ := rfl

/-! ### C04 -/

/-- The type is a function type: its outermost modifier is a parameter list. -/
def IsFunction (t : CType) : Prop := ∃ ms ps, t.mods = ms ++ [CMod.fn ps]

/-- What `remove_compatibility_hack(add_compatibility_hack(t))` gives for a function type: the same
base and modifiers, but all qualifiers erased. -/
theorem C04_roundtrip_partial (t : CType) (ht : QualsMatch t) (hf : IsFunction t) :
    ∃ h, addHack t = .ok h ∧
      removeHack h = .ok ⟨t.spec, t.mods, List.replicate t.quals.length (some [])⟩ := by
  obtain ⟨ms, ps, hms⟩ := hf
  have hps : t.mods.getLast? = some (.fn ps) := by simp [hms]
  have hl : t.quals.dropLast.length = 1 + t.mods.dropLast.length := by
    simp only [QualsMatch, hms, List.length_append, List.length_cons, List.length_nil] at ht
    simp [hms, ht]; omega
  cases hq : t.quals.getLast? with
  | none =>
    have : t.quals = [] := by simpa using hq
    simp [QualsMatch, this] at ht; omega
  | some q =>
    refine ⟨.func ⟨t.spec, t.mods.dropLast, t.quals.dropLast⟩ ps [some [], q], ?_, ?_⟩
    · unfold addHack; rw [hps]; simp only; rw [mkType_some_ok hl, hq]; rfl
    · unfold QualsMatch at ht
      simp [removeHack, mkType, hms, ht]

/-- C04 exact scope: the round trip gives back `t` exactly when `t` has no qualifier at all. -/
theorem C04_roundtrip_iff (t : CType) (ht : QualsMatch t) (hf : IsFunction t) :
    (∃ h, addHack t = .ok h ∧ removeHack h = .ok t) ↔ ∀ q ∈ t.quals, q = some [] := by
  obtain ⟨h, h1, h2⟩ := C04_roundtrip_partial t ht hf
  constructor
  · rintro ⟨h', h3, h4⟩
    rw [h1] at h3; injection h3 with h3; subst h3
    rw [h2] at h4; injection h4 with h4
    have := congrArg TypeF.quals h4
    simp only at this
    intro q hq
    rw [← this] at hq
    exact (List.mem_replicate.1 hq).2
  · intro hq
    refine ⟨h, h1, ?_⟩
    rw [h2]
    have : List.replicate t.quals.length (some []) = t.quals :=
      (List.eq_replicate_of_mem hq).symm
    rw [this]

/-- C04: both conversions leave every non-function type unchanged. -/
theorem C04_nonfunction (t : CType) (hf : ¬ IsFunction t) :
    addHack t = .ok (.plain t) ∧ removeHack (.plain t) = .ok t := by
  refine ⟨?_, rfl⟩
  unfold addHack
  split
  · rename_i ps hps
    obtain ⟨ms, hms⟩ := List.getLast?_eq_some_iff.1 hps
    exact absurd ⟨ms, ps, hms⟩ hf
  · rfl

/-- C04 does not hold as stated: for `const int f(void)` the round trip loses `const`. -/
theorem C04_counterexample :
    ∃ t h u, QualsMatch t ∧ addHack t = .ok h ∧ removeHack h = .ok u ∧ u ≠ t := by
  refine ⟨⟨c%"int", [.fn []], [some [c%"const"], some []]⟩, _, _, rfl, rfl, rfl, ?_⟩
  intro h
  have := congrArg TypeF.quals h
  revert this; decide

example : IsFunction ⟨c%"int", [.sym c%"*", .fn []], [some [], some [], some []]⟩ := ⟨[.sym c%"*"], [], rfl⟩

end Pyclib
