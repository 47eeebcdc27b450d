import Verif.Spec.Scalars
import Verif.Props.Ctypes
import Verif.Props.Classes
/-!
C71: the words of an arithmetic type select the ctypes class of that type.

Full statement: for every spelling of an arithmetic type.  False: see the counterexamples (spellings without
an entry, `signed char`).
-/
namespace Pyclib
open Spec

theorem wordsOf_plain {s : Str} {ws : List Str} (h : WordsOf s ws) (hw : ∀ w ∈ ws, ∀ c ∈ w, isWordC c = true) : PlainName s := by
  induction h with
  | nil s h => exact fun c hc => .inr (h c hc)
  | cons pre w rest ws h1 h2 h3 h4 h5 ih =>
    intro c hc
    simp only [List.mem_append] at hc
    rcases hc with (hc | hc) | hc
    · exact .inr (h1 c hc)
    · exact .inl (hw w (by simp) c hc)
    · exact ih (fun w hw' => hw w (by simp [hw'])) c hc

theorem spells_words {ws : List Str} {k : CScalar} (h : Spells ws k) : ∀ w ∈ ws, ∀ c ∈ w, isWordC c = true := by
  obtain ⟨m, hm, hp⟩ := h
  intro w hw
  have : w ∈ m := hp.mem_iff.1 hw
  revert w m
  have key : ∀ p ∈ cSpecifiers, ∀ w ∈ p.1, ∀ c ∈ w, isWordC c = true := by decide +kernel
  intro m hm _ w _ hw
  exact key _ hm w hw

/-- C71: words name at most one type. -/
theorem C71_unique (ws : List Str) (k k' : CScalar) (h : Spells ws k) (h' : Spells ws k') : k = k' := by
  obtain ⟨m, hm, hp⟩ := h
  obtain ⟨m', hm', hp'⟩ := h'
  have key : ∀ p ∈ cSpecifiers, ∀ q ∈ cSpecifiers, p.1.isPerm q.1 = true → p.2 = q.2 := by decide +kernel
  exact key _ hm _ hm' (List.isPerm_iff.2 (hp.symm.trans hp'))

theorem spells_of {ws : List Str} {k : CScalar} (h : cSpecifiers.any (fun p => ws.isPerm p.1 && p.2 == k) = true) : Spells ws k := by
  simp only [List.any_eq_true, Bool.and_eq_true, beq_iff_eq] at h
  obtain ⟨p, h1, h2, rfl⟩ := h
  exact ⟨p.1, h1, List.isPerm_iff.1 h2⟩

/-- The words left of a spelling. -/
theorem spells_drop {s : Str} {ws : List Str} {k : CScalar} (hw : WordsOf s ws) (hk : Spells ws k) :
    ∃ m, (m, k) ∈ cSpecifiers ∧ (splitWs (dropSigned s)).Perm (m.filter (· ≠ c%"signed")) := by
  have hp := wordsOf_plain hw (spells_words hk)
  obtain ⟨m, hm, hpm⟩ := hk
  refine ⟨m, hm, ?_⟩
  rw [splitWs_dropSigned s hp, (splitWs_iff _ _).2 hw]
  exact hpm.filter _

theorem spells_word {s : Str} {ws : List Str} {k : CScalar} (hw : WordsOf s ws) (hk : Spells ws k) (w tag : Str)
    (hw' : w ∈ [c%"struct", c%"union", c%"enum"]) : dropSigned s ≠ w ++ ' ' :: tag := by
  obtain ⟨m, hm, hp⟩ := spells_drop hw hk
  intro e
  have h1 : w ∈ splitWs (dropSigned s) := by
    have h2 : w ≠ [] ∧ ∀ c ∈ w, isSpaceC c = false := by
      have : ∀ w ∈ [c%"struct", c%"union", c%"enum"], w ≠ [] ∧ ∀ c ∈ w, isSpaceC c = false := by decide
      exact this w hw'
    rw [e, splitWs_word w _ h2.1 h2.2 (by simp; decide)]
    simp
  have h2 := hp.mem_iff.1 h1
  have key : ∀ p ∈ cSpecifiers, ∀ w ∈ [c%"struct", c%"union", c%"enum"], w ∉ p.1.filter (· ≠ c%"signed") := by decide +kernel
  exact key _ hm w hw' h2

theorem spells_void {s : Str} {ws : List Str} {k : CScalar} (hw : WordsOf s ws) (hk : Spells ws k) : dropSigned s ≠ c%"void" := by
  obtain ⟨m, hm, hp⟩ := spells_drop hw hk
  intro e
  rw [e] at hp
  have key : ∀ p ∈ cSpecifiers, (splitWs c%"void").isPerm (p.1.filter (· ≠ c%"signed")) = false := by decide +kernel
  rw [← List.isPerm_iff, key _ hm] at hp
  cases hp

theorem spells_entry {s : Str} {ws : List Str} {k : CScalar} (hw : WordsOf s ws) (hk : Spells ws k) (hc : k ≠ .schar) {p : Str}
    (h : dget ctypesTable (dropSigned s) = some p) : dget ctypesScalar p = some k := by
  obtain ⟨m, hm, hp⟩ := spells_drop hw hk
  have key : ∀ e ∈ ctypesTable, ∀ q ∈ cSpecifiers, q.2 ≠ .schar → (splitWs e.1).isPerm (q.1.filter (· ≠ c%"signed")) = true →
      dget ctypesScalar e.2 = some q.2 := by decide +kernel
  exact key _ (dget_some_mem h) _ hm hc (List.isPerm_iff.2 hp)

/-- C71 (partial: not `signed char`, which is taken for `char`): a class that mirrors an arithmetic type in the sense
of C47 and C70 stands for that type, whatever the order of its words and the white space. -/
theorem C71_scalar_partial (structs : Dict Str Nat) (s : Str) (ws : List Str) (k : CScalar) (hw : WordsOf s ws) (hk : Spells ws k)
    (hc : k ≠ .schar) (c : Cls) (h : Mirrors ctypesTable structs c (.base (dropSigned s))) :
    ∃ p, c = .prim p ∧ dget ctypesScalar p = some k := by
  have hword := spells_word hw hk
  have hvoid := spells_void hw hk
  have hent := fun p => spells_entry hw hk hc (p := p)
  generalize hs : dropSigned s = r at h hword hvoid hent
  generalize hb : CTy.base r = b at h
  cases h with
  | void => cases hb; exact absurd rfl hvoid
  | prim _ p h => cases hb; exact ⟨p, rfl, hent p h⟩
  | enum tag => exact absurd (by cases hb; rfl) (hword c%"enum" tag (by simp))
  | struct tag id h => exact absurd (by cases hb; rfl) (hword c%"struct" tag (by simp))
  | union tag id h => exact absurd (by cases hb; rfl) (hword c%"union" tag (by simp))
  | _ => cases hb

/-- C71: every arithmetic type other than `signed char` has a spelling that gets its class. -/
theorem C71_supported (k : CScalar) (hk : k ≠ .schar) :
    ∃ s p, Spells (splitWs s) k ∧ dget ctypesTable (dropSigned s) = some p ∧ dget ctypesScalar p = some k := by
  have key : ∀ q ∈ cSpecifiers.map (·.2), q ≠ .schar → (ctypesTable.find? fun e =>
      cSpecifiers.any (fun p => p.1.isPerm (splitWs e.1) && p.2 == q) && dropSigned e.1 == e.1 &&
        dget ctypesTable e.1 == some e.2 && dget ctypesScalar e.2 == some q).isSome = true := by decide +kernel
  have h := key k (by cases k <;> decide) hk
  rw [Option.isSome_iff_exists] at h
  obtain ⟨e, he⟩ := h
  have h1 := List.find?_some he
  simp only [Bool.and_eq_true, List.any_eq_true, beq_iff_eq] at h1
  obtain ⟨⟨⟨⟨p, hp, hp1, rfl⟩, h2⟩, h3⟩, h4⟩ := h1
  exact ⟨e.1, e.2, ⟨p.1, hp, (List.isPerm_iff.1 hp1).symm⟩, by rw [h2, h3], h4⟩

/-- C71 (partial: not `signed char`): asked for an arithmetic type, the backend returns the class of that type
or raises `KeyError`; nothing else happens. -/
theorem C71_get_partial (e : CtEnv) (he : e.types = ctypesTable) (s : Str) (ws : List Str) (k : CScalar) (hw : WordsOf s ws)
    (hk : Spells ws k) (hc : k ≠ .schar) (q : Qual) (n : Nat) (st : CtState) :
    (∃ p, getType e (n + 1) st ⟨s, [], [q]⟩ = (.ok (.prim p), st) ∧ dget ctypesScalar p = some k) ∨
    (dget ctypesTable (dropSigned s) = none ∧ getType e (n + 1) st ⟨s, [], [q]⟩ = (.error .keyError, st)) := by
  have hf : isFund e.cfg s = true := by
    unfold isFund
    split
    · rfl
    · rw [(splitWs_iff _ _).2 hw, List.all_eq_true]
      intro w hw'
      obtain ⟨m, hm, hp⟩ := hk
      have : w ∈ m := hp.mem_iff.1 hw'
      have key : ∀ p ∈ cSpecifiers, ∀ w ∈ p.1, w ∈ [c%"int", c%"float", c%"double", c%"char", c%"wchar", c%"wchar_t", c%"bool",
         c%"short", c%"long", c%"signed", c%"unsigned", c%"int8_t", c%"int16_t", c%"int32_t", c%"int64_t",
         c%"uint8_t", c%"uint16_t", c%"uint32_t", c%"uint64_t", c%"size_t", c%"ssize_t"] := by decide +kernel
      have h1 := key _ hm w this
      rw [decide_eq_true_eq, ← fundWord_iff]
      refine .inl ?_
      simp only [List.mem_cons, List.not_mem_nil, or_false] at h1 ⊢
      grind
  have hev : evalType e.cfg e.tm ⟨s, [], [q]⟩ = .ok ⟨dropSigned s, [], [q]⟩ := by
    simp [evalType, evalAux, hf, mkType]
  have hm : ∀ h, mergeMods h [] = ([], h) := fun h => rfl
  cases hd : dget ctypesTable (dropSigned s) with
  | some p =>
    refine .inl ⟨p, ?_, spells_entry hw hk hc hd⟩
    simp only [getType, hev, baseCls, specialCls, he, hd, if_true]
    rfl
  | none =>
    refine .inr ⟨rfl, ?_⟩
    have h1 : ∀ w, w ∈ [c%"struct", c%"union", c%"enum"] → startsWith (dropSigned s) (w ++ [' ']) = false := by
      intro w hw'
      cases hx : startsWith (dropSigned s) (w ++ [' ']) with
      | false => rfl
      | true =>
        rw [startsWith_iff] at hx
        obtain ⟨t, ht⟩ := hx
        exact absurd (by rw [ht]; simp) (spells_word hw hk w t hw')
    have h2 := h1 c%"struct" (by simp)
    have h3 := h1 c%"union" (by simp)
    have h4 := h1 c%"enum" (by simp)
    have h5 := spells_void hw hk
    simp only [List.cons_append, List.nil_append] at h2 h3 h4
    simp [getType, hev, baseCls, specialCls, he, hd, h2, h3, h4, h5]

/-- C71: with its specifiers in the order in which C lists them, and one blank between them, every arithmetic type other than `signed char` has its
class; only `signed` alone is missing. -/
theorem C71_usual (e : CtEnv) (he : e.types = ctypesTable) (ws : List Str) (k : CScalar) (h : (ws, k) ∈ cSpecifiers) (hc : k ≠ .schar)
    (hs : ws ≠ [c%"signed"]) (q : Qual) (n : Nat) (st : CtState) :
    ∃ p, getType e (n + 1) st ⟨[' '].intercalate ws, [], [q]⟩ = (.ok (.prim p), st) ∧ dget ctypesScalar p = some k := by
  have key : ∀ p ∈ cSpecifiers, p.2 ≠ .schar → p.1 ≠ [c%"signed"] →
      splitWs ([' '].intercalate p.1) = p.1 ∧ dget ctypesTable (dropSigned ([' '].intercalate p.1)) ≠ none := by decide +kernel
  obtain ⟨h1, h2⟩ := key _ h hc hs
  rcases C71_get_partial e he ([' '].intercalate ws) ws k ((splitWs_iff _ _).1 h1) ⟨ws, h, .refl _⟩ hc q n st with h | h
  · exact h
  · exact absurd h.1 h2

example : Spells (splitWs c%"long  unsigned int") .ulong := spells_of (by rfl)

/-- C71 fails for spellings that C allows and that have no entry; compilers write some of them in
preprocessed headers: KeyError. -/
theorem C71_counterexample_spelling : Spells (splitWs c%"short unsigned int") .ushort ∧
    Spells (splitWs c%"long long unsigned int") .ulonglong ∧ Spells (splitWs c%"signed") .int ∧
    ∀ s ∈ [c%"short unsigned int", c%"long long unsigned int", c%"signed", c%"char unsigned"],
      (getType (cxEnv [] []) 5 exStart (ctTy s [])).1 = .error .keyError :=
  ⟨spells_of (by rfl), spells_of (by rfl), spells_of (by rfl),
    by simp only [List.mem_cons, List.not_mem_nil, or_false]; rintro s (rfl | rfl | rfl | rfl) <;> rfl⟩

/-- C71 fails for `signed char`, which gets `c_char`. -/
theorem C71_counterexample_signed_char : Spells (splitWs c%"signed char") .schar ∧
    (getType (cxEnv [] []) 5 exStart (ctTy c%"signed char" [])).1 = .ok (.prim c%"c_char") ∧
    dget ctypesScalar c%"c_char" = some .char := ⟨spells_of (by rfl), by rfl, by rfl⟩

/-- The class of the base type is found first. -/
theorem plain_base {e : CtEnv} {s : Str} (hf : isFund e.cfg s = true) {q : Qual} {n : Nat} {st st' : CtState} {c : Cls}
    (h : getType e (n + 1) st ⟨s, [], [q]⟩ = (.ok c, st')) (ms : List CMod) (qs : List Qual)
    (hms : ms.head?.all (fun m => match m with | .sym _ => false | _ => true) = true) :
    baseCls e (getType e n) true st ⟨dropSigned s, ms, qs⟩ = (.ok (c, ms), st') := by
  have h0 : evalType e.cfg e.tm ⟨s, [], [q]⟩ = .ok ⟨dropSigned s, [], [q]⟩ := by simp [evalType, evalAux, hf, mkType]
  simp only [getType, h0] at h
  have hsp : specialCls ⟨dropSigned s, ms, qs⟩ = none := by
    unfold specialCls
    cases ms with
    | nil => rfl
    | cons m ms => cases m <;> simp_all
  have hsp0 : specialCls ⟨dropSigned s, [], [q]⟩ = none := rfl
  unfold baseCls at h ⊢
  simp only [if_true, hsp, hsp0] at h ⊢
  cases hd : dget e.types (dropSigned s) with
  | some p =>
    simp only [hd] at h ⊢
    simp only [mergeMods, applyMods, Prod.mk.injEq, Except.ok.injEq] at h
    obtain ⟨rfl, rfl⟩ := h
    rfl
  | none =>
    simp only [hd] at h ⊢
    split at h
    · cases h
    · rename_i c1 ms1 st1 hb
      split at hb
      · rename_i hs
        rw [if_pos hs]
        split at hb
        · cases hb
        · split at hb
          · cases hb
          · rename_i hg
            cases hb
            simp only [mergeMods, applyMods, Prod.mk.injEq, Except.ok.injEq] at h
            obtain ⟨rfl, rfl⟩ := h
            rfl
      · rename_i hs
        rw [if_neg hs]
        split at hb
        · rename_i hs
          rw [if_pos hs]
          cases hb
          simp only [mergeMods, applyMods, Prod.mk.injEq, Except.ok.injEq] at h
          obtain ⟨rfl, rfl⟩ := h
          rfl
        · rename_i hs
          rw [if_neg hs]
          split at hb
          · rename_i hs
            rw [if_pos hs]
            cases hb
            simp only [mergeMods, applyMods, Prod.mk.injEq, Except.ok.injEq] at h
            obtain ⟨rfl, rfl⟩ := h
            rfl
          · cases hb

/-- C47: there is no class for a function that is not pointed to, nor for an array of functions: `DefinitionError`, where
the result type alone has a class. -/
theorem C47_bare_function (e : CtEnv) (s : Str) (hf : isFund e.cfg s = true) (ps : List Param) (l : List (Option Int))
    (q q1 q2 q3 : Qual) (n : Nat) (st st' : CtState) (c : Cls) (h : getType e (n + 1) st ⟨s, [], [q]⟩ = (.ok c, st')) :
    getType e (n + 1) st ⟨s, [.fn ps], [q1, q2]⟩ = (.error .definitionError, st') ∧
    getType e (n + 1) st ⟨s, [.fn ps, .arr l], [q1, q2, q3]⟩ = (.error .definitionError, st') := by
  have h1 : evalType e.cfg e.tm ⟨s, [.fn ps], [q1, q2]⟩ = .ok ⟨dropSigned s, [.fn ps], [q1, q2]⟩ := by
    simp [evalType, evalAux, hf, mkType]
  have h2 : evalType e.cfg e.tm ⟨s, [.fn ps, .arr l], [q1, q2, q3]⟩ =
      .ok ⟨dropSigned s, [.fn ps, .arr l], [q1, q2, q3]⟩ := by simp [evalType, evalAux, hf, mkType]
  have k1 := plain_base hf h [.fn ps] [q1, q2] rfl
  have k2 := plain_base hf h [.fn ps, .arr l] [q1, q2, q3] rfl
  constructor
  · simp only [getType, h1, k1]
    rfl
  · simp only [getType, h2, k2]
    rfl

/-- C47: there is no class for an array of `void`, of unknown or of negative length: `TypeError`, `TypeError` and `ValueError`.  (The list of lengths is
the one with the identity `i`.) -/
theorem C47_bad_array (e : CtEnv) (s : Str) (hf : isFund e.cfg s = true) (i : Int) (d : Option Int)
    (q q1 q2 : Qual) (n : Nat) (st st' : CtState) (c : Cls) (h : getType e (n + 1) st ⟨s, [], [q]⟩ = (.ok c, st')) (hi : st'.heap i = [d])
    (hd : d ≠ some (-1)) :
    (c.isVoid = true ∨ d = none → getType e (n + 1) st ⟨s, [.arr [some i]], [q1, q2]⟩ = (.error .typeError, st')) ∧
    (c.isVoid = false → ∀ k, d = some k → k < 0 → getType e (n + 1) st ⟨s, [.arr [some i]], [q1, q2]⟩ = (.error .valueError, st')) := by
  have h1 : evalType e.cfg e.tm ⟨s, [.arr [some i]], [q1, q2]⟩ = .ok ⟨dropSigned s, [.arr [some i]], [q1, q2]⟩ := by
    simp [evalType, evalAux, hf, mkType]
  have k1 := plain_base hf h [.arr [some i]] [q1, q2] rfl
  constructor
  · intro hh
    simp only [getType, h1, k1]
    rcases hh with hc | rfl
    · cases c <;> simp [Cls.isVoid] at hc
      simp [mergeMods, mergeLoop, applyMods, hi, applyDims, applyDim, hd, mkArr]
    · cases c <;> simp [mergeMods, mergeLoop, applyMods, hi, applyDims, applyDim, mkArr]
  · rintro hc k rfl hk
    simp only [getType, h1, k1]
    have hd : k ≠ -1 := fun h => hd (by rw [h])
    cases c with
    | void => simp [Cls.isVoid] at hc
    | _ => simp [mergeMods, mergeLoop, applyMods, hi, applyDims, applyDim, hd, mkArr, hk]

example : getType (cxEnv [] []) 5 { exStart with heap := fun _ => [some (-5)] } ⟨c%"int", [.arr [some 1]], [some [], some []]⟩ =
    (.error .valueError, { exStart with heap := fun _ => [some (-5)] }) :=
  (C47_bad_array (cxEnv [] []) c%"int" rfl 1 (some (-5)) (some []) (some []) (some []) 4 _ _
    (.prim c%"c_int") rfl rfl (by decide)).2 rfl _ rfl (by decide)

/-- A function returning `int`. -/
example : getType (cxEnv [] []) 5 exStart ⟨c%"int", [.fn []], [some [], some []]⟩ = (.error .definitionError, exStart) :=
  (C47_bare_function (cxEnv [] []) c%"int" rfl [] [] (some []) (some []) (some []) (some []) 4 exStart exStart
    (.prim c%"c_int") rfl).1

end Pyclib
