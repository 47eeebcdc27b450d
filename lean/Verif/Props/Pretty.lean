import Verif.Spec.Pretty
import Verif.Props.Repr
import Verif.Props.Session
/-!
C95: signatures of functions as text, and what a call raises when the C function raises.
-/
namespace Pyclib
open Spec

theorem reads_typePy {t : CType} (h : InOk t) (f : Nat) (r : Str) (hf : 3 * (typePy t).repr.length ≤ f) :
    rd f ((typePy t).repr ++ r) = some (typePy t, r) := by
  have ho := ok_type h
  unfold typePy at ho hf ⊢
  obtain ⟨h1, h2, h3, h4, h5⟩ := ho
  exact reads_type (readsA _ h3) (readsL _ h4) h1 h2 h5 f r (Nat.le_trans (costV_le _) hf)

theorem joinMods_ok : ∀ {ms : List CMod}, (∀ m ∈ ms, m = .sym c%"*" ∨ m = .sym c%"&") → joinMods ms = .ok (signs ms)
  | [], _ => rfl
  | m :: ms, h => by
    have ih := joinMods_ok (fun m hm => h m (List.mem_cons_of_mem _ hm))
    rcases h m (by simp) with rfl | rfl <;> simp [joinMods, ih, signs]

theorem joinMods_error : ∀ {ms : List CMod} {x : PyErr}, joinMods ms = .error x →
    x = .typeError ∧ ∃ m ∈ ms, ∀ s, m ≠ .sym s
  | [], _, h => by simp [joinMods] at h
  | .sym s :: ms, x, h => by
    unfold joinMods at h
    cases hj : joinMods ms with
    | ok r => rw [hj] at h; simp at h
    | error y =>
      rw [hj] at h
      simp only [Except.error.injEq] at h
      subst h
      obtain ⟨h1, m, h2, h3⟩ := joinMods_error hj
      exact ⟨h1, m, List.mem_cons_of_mem _ h2, h3⟩
  | .arr d :: ms, x, h => by
    simp only [joinMods, Except.error.injEq] at h
    exact ⟨h.symm, .arr d, by simp, by simp⟩
  | .fn d :: ms, x, h => by
    simp only [joinMods, Except.error.injEq] at h
    exact ⟨h.symm, .fn d, by simp, by simp⟩

theorem joinMods_other : ∀ {ms : List CMod} {m : CMod}, m ∈ ms → (∀ s, m ≠ .sym s) → joinMods ms = .error .typeError
  | [], _, h, _ => by simp at h
  | .sym s :: ms, m, h, hm => by
    rcases List.mem_cons.1 h with rfl | h
    · exact absurd rfl (hm s)
    · simp [joinMods, joinMods_other h hm]
  | .arr _ :: _, _, _, _ => rfl
  | .fn _ :: _, _, _, _ => rfl

theorem signs_chars : ∀ {ms : List CMod}, (∀ m ∈ ms, m = .sym c%"*" ∨ m = .sym c%"&") → ∀ c ∈ signs ms, c = '*' ∨ c = '&'
  | [], _, c, hc => by simp [signs] at hc
  | m :: ms, h, c, hc => by
    have ih := signs_chars (fun m hm => h m (List.mem_cons_of_mem _ hm)) c
    rcases h m (by simp) with rfl | rfl
    · simp [signs] at hc
      rcases hc with rfl | hc
      · exact .inl rfl
      · exact ih hc
    · simp [signs] at hc
      rcases hc with rfl | hc
      · exact .inr rfl
      · exact ih hc

theorem signs_inj : ∀ {a b : List CMod}, (∀ m ∈ a, m = .sym c%"*" ∨ m = .sym c%"&") →
    (∀ m ∈ b, m = .sym c%"*" ∨ m = .sym c%"&") → signs a = signs b → a = b
  | [], [], _, _, _ => rfl
  | [], m :: b, _, hb, h => by rcases hb m (by simp) with rfl | rfl <;> simp [signs] at h
  | m :: a, [], ha, _, h => by rcases ha m (by simp) with rfl | rfl <;> simp [signs] at h
  | m :: a, m' :: b, ha, hb, h => by
    have ih := signs_inj (a := a) (b := b) (fun m hm => ha m (List.mem_cons_of_mem _ hm)) (fun m hm => hb m (List.mem_cons_of_mem _ hm))
    rcases ha m (by simp) with rfl | rfl <;> rcases hb m' (by simp) with rfl | rfl <;> simp [signs] at h ⊢ <;> exact ih h

theorem nameText_ok {n : Option Str} (h : ∀ m, n = some m → NameText m) : (nameText n).all isNameC = true := by
  cases n with
  | none => rfl
  | some n => exact h n rfl

theorem readParams_ok : ∀ (ps : List Param) (k : Nat), ps ≠ [] → ps.length ≤ k → (∀ p ∈ ps, ParamShow p) →
    readParams k (joinArgs ps ++ c%")") = some (ps.map fun p => (typePy p.2.1, nameText p.1))
  | [], _, h, _, _ => absurd rfl h
  | [p], k, _, hk, h => by
    obtain ⟨k, rfl⟩ : ∃ j, k = j + 1 := ⟨k - 1, by simp at hk; omega⟩
    obtain ⟨h1, h2⟩ := h p (by simp)
    obtain ⟨t1, t2⟩ := takeWhile_stop (r := c%")") (nameText_ok h2) rfl
    rw [readParams, joinArgs, argText, List.append_assoc, reads_typePy h1 _ _ (by simp; omega)]
    simp only [List.cons_append]
    rw [t2, t1]
    rfl
  | p :: q :: ps, k, _, hk, h => by
    obtain ⟨k, rfl⟩ : ∃ j, k = j + 1 := ⟨k - 1, by simp at hk; omega⟩
    obtain ⟨h1, h2⟩ := h p (by simp)
    have ih := readParams_ok (q :: ps) k (by simp) (by simp at hk ⊢; omega) (fun p hp => h p (List.mem_cons_of_mem _ hp))
    obtain ⟨t1, t2⟩ := takeWhile_stop (r := ',' :: ' ' :: (joinArgs (q :: ps) ++ c%")")) (nameText_ok h2) rfl
    have e : joinArgs (p :: q :: ps) ++ c%")" =
        (typePy p.2.1).repr ++ ' ' :: (nameText p.1 ++ ',' :: ' ' :: (joinArgs (q :: ps) ++ c%")")) := by
      simp [joinArgs, argText]
    rw [readParams, e, reads_typePy h1 _ _ (by simp; omega)]
    simp only []
    rw [t2, t1]
    simp only []
    rw [ih]
    rfl

theorem joinArgs_length : ∀ ps : List Param, ps.length ≤ (joinArgs ps).length
  | [] => by simp
  | [p] => by simp [joinArgs, argText]; omega
  | p :: q :: ps => by
    have := joinArgs_length (q :: ps)
    simp [joinArgs, argText] at this ⊢
    omega

/-- C95: the signature of a function whose result is a base type, a pointer or a reference to it reads as the
result, the name, and the parameters in their order. -/
theorem C95_read (name : Str) (f : CFunc) (hn : NameText name) (hr : RetShow f.ret) (hp : ∀ p ∈ f.params, ParamShow p) :
    ∃ s, prettySig name f = .ok s ∧ readSig s = some (sigFacts name f) := by
  have hj := joinMods_ok hr.2
  refine ⟨f.ret.spec ++ signs f.ret.mods ++ ' ' :: (name ++ '(' :: (joinArgs f.params ++ c%")")), by
    simp [prettySig, joinType, hj], ?_⟩
  have hs := signs_chars hr.2
  have hnm : ∀ c ∈ name, c ≠ '(' ∧ c ≠ ' ' := by
    intro c hc
    have := List.all_eq_true.1 hn c hc
    constructor <;> (rintro rfl; simp [isNameC] at this)
  have hall : ∀ c ∈ f.ret.spec ++ signs f.ret.mods ++ ' ' :: name, c ≠ '(' := by
    intro c hc
    simp only [List.mem_append, List.mem_cons] at hc
    rcases hc with (hc | hc) | rfl | hc
    · exact (hr.1 c hc).1
    · rcases hs c hc with rfl | rfl <;> decide
    · decide
    · exact (hnm c hc).1
  obtain ⟨t1, t2⟩ := takeWhile_stop (p := fun c => decide (c ≠ '(')) (w := f.ret.spec ++ signs f.ret.mods ++ ' ' :: name)
    (r := '(' :: (joinArgs f.params ++ c%")")) (List.all_eq_true.2 fun c hc => decide_eq_true (hall c hc)) rfl
  have e : f.ret.spec ++ signs f.ret.mods ++ ' ' :: (name ++ '(' :: (joinArgs f.params ++ c%")")) =
      f.ret.spec ++ signs f.ret.mods ++ ' ' :: name ++ '(' :: (joinArgs f.params ++ c%")") := by simp
  obtain ⟨u1, u2⟩ := takeWhile_stop (p := fun c => decide (c ≠ ' ')) (w := name.reverse)
    (r := ' ' :: (f.ret.spec ++ signs f.ret.mods).reverse) (by simpa using fun c hc => (hnm c hc).2) rfl
  have e2 : (f.ret.spec ++ signs f.ret.mods ++ ' ' :: name).reverse = name.reverse ++ ' ' :: (f.ret.spec ++ signs f.ret.mods).reverse := by
    simp
  obtain ⟨v1, v2⟩ := takeWhile_stop (p := notSign) (w := f.ret.spec)
    (r := signs f.ret.mods) (by simpa [notSign] using fun c hc => (hr.1 c hc).2) (by
      cases hsm : signs f.ret.mods with
      | nil => rfl
      | cons c r =>
        rcases hs c (by rw [hsm]; simp) with rfl | rfl <;> rfl)
  unfold readSig
  dsimp only
  rw [e, t1, t2, e2, u1, u2]
  simp only [List.drop_succ_cons, List.drop_zero, List.reverse_reverse]
  rw [v1, v2]
  cases hps : f.params with
  | nil => simp [joinArgs, sigFacts, hps]
  | cons p ps =>
    have hk := readParams_ok (p :: ps) ((joinArgs (p :: ps) ++ c%")").length + 1) (by simp)
      (by have := joinArgs_length (p :: ps); simp at this ⊢; omega) (by rw [← hps]; exact hp)
    have hne : joinArgs (p :: ps) ≠ [] := by
      have := joinArgs_length (p :: ps)
      intro h
      rw [h] at this
      simp at this
    split
    · next h => simp at h; exact absurd h hne
    · next r h1 h =>
      simp only [List.cons.injEq, true_and] at h
      subst h
      rw [hk]
      have hn : ∀ p : Param, shownName p.1 = nameText p.1 := fun p => by cases p.1 <;> rfl
      simp only [sigFacts, hps, Option.map_some, hn]
    · next h => exact absurd rfl (h _)

/-- C95: functions with the same signature text have the same name, the same result up to qualifiers, and the
same names and types of parameters (default values are not shown). -/
theorem C95_same_partial (n n' : Str) (f f' : CFunc) (s : Str) (hn : NameText n) (hn' : NameText n') (hr : RetShow f.ret)
    (hr' : RetShow f'.ret) (hp : ∀ p ∈ f.params, ParamShow p ∧ p.1 ≠ some c%"None")
    (hp' : ∀ p ∈ f'.params, ParamShow p ∧ p.1 ≠ some c%"None") (h : prettySig n f = .ok s) :
    prettySig n' f' = .ok s ↔
      n' = n ∧ f'.ret.spec = f.ret.spec ∧ f'.ret.mods = f.ret.mods ∧
        f'.params.map (fun p => (p.1, p.2.1)) = f.params.map (fun p => (p.1, p.2.1)) := by
  have hnt : ∀ {a b : Option Str}, a ≠ some c%"None" → b ≠ some c%"None" → nameText a = nameText b → a = b := by
    intro a b ha hb hab
    cases a <;> cases b <;> simp [nameText] at hab ha hb ⊢
    · exact hb hab.symm
    · exact ha hab
    · exact hab
  constructor
  · intro h'
    obtain ⟨t, h1, h2⟩ := C95_read n f hn hr (fun p h => (hp p h).1)
    obtain ⟨t', h3, h4⟩ := C95_read n' f' hn' hr' (fun p h => (hp' p h).1)
    rw [h] at h1; cases h1
    rw [h'] at h3; cases h3
    rw [h2, Option.some.injEq] at h4
    have hsn : ∀ p : Param, shownName p.1 = nameText p.1 := fun p => by cases p.1 <;> rfl
    simp only [sigFacts, Prod.mk.injEq, hsn] at h4
    obtain ⟨⟨a1, a2⟩, a3, a4⟩ := h4
    refine ⟨a3.symm, a1.symm, (signs_inj hr.2 hr'.2 a2).symm, ?_⟩
    clear h h' h2
    generalize f.params = ps at hp a4
    generalize f'.params = ps' at hp' a4
    induction ps generalizing ps' with
    | nil => cases ps' with
      | nil => rfl
      | cons p ps' => simp at a4
    | cons p ps ih => cases ps' with
      | nil => simp at a4
      | cons p' ps' =>
        simp only [List.map_cons, List.cons.injEq, Prod.mk.injEq] at a4 ⊢
        obtain ⟨⟨b1, b2⟩, b3⟩ := a4
        exact ⟨⟨(hnt (hp p (by simp)).2 (hp' p' (by simp)).2 b2).symm, (typePy_inj b1).symm⟩,
          ih (fun p h => hp p (List.mem_cons_of_mem _ h)) ps' (fun p h => hp' p (List.mem_cons_of_mem _ h)) b3⟩
  · rintro ⟨rfl, h1, h2, h3⟩
    rw [← h]
    have hj : joinArgs f'.params = joinArgs f.params := by
      clear h hp hp'
      generalize f.params = ps at h3
      generalize f'.params = ps' at h3
      induction ps generalizing ps' with
      | nil => cases ps' with
        | nil => rfl
        | cons p ps' => simp at h3
      | cons p ps ih => cases ps' with
        | nil => simp at h3
        | cons p' ps' =>
          simp only [List.map_cons, List.cons.injEq, Prod.mk.injEq] at h3
          obtain ⟨⟨b1, b2⟩, b3⟩ := h3
          have := ih ps' b3
          have ha : argText p' = argText p := by simp [argText, b1, b2]
          cases ps with
          | nil => cases ps' with
            | nil => simpa [joinArgs] using ha
            | cons q qs => simp at b3
          | cons q qs => cases ps' with
            | nil => simp at b3
            | cons q' qs' => simp [joinArgs, ha, this]
    simp [prettySig, joinType, h1, h2, hj]

/-- C95: `pretty_signature` raises `TypeError` exactly if the result has an array or a function among its
declarators (a pointer to an array, a pointer to a function), and raises nothing else. -/
theorem C95_raises (name : Str) (f : CFunc) (x : PyErr) :
    prettySig name f = .error x ↔ x = .typeError ∧ ∃ m ∈ f.ret.mods, ∀ s, m ≠ .sym s := by
  unfold prettySig joinType
  constructor
  · intro h
    cases hj : joinMods f.ret.mods with
    | ok r => rw [hj] at h; simp at h
    | error y =>
      rw [hj] at h
      simp only [Except.error.injEq] at h
      subst h
      exact joinMods_error hj
  · rintro ⟨rfl, m, hm, h⟩
    rw [joinMods_other hm h]

/-- C95: a call that reaches the C function raises what the C function raises and logs the signature, or
returns what it returns and logs nothing, if the result has no arrays and functions among its declarators. -/
theorem C95_call_partial {A V : Type} (e : CtEnv) (n : Nat) (name : Str) (f : CFunc) (found : Except PyErr Unit)
    (run : List (Passed A) → Except PyErr V) (st st' : CtState) (args : List (PyArg A)) (kws : List (Str × PyArg A))
    (as : List (Passed A)) (g : List Nat) (h : callFunc e n f found st args kws = (.called as g, st'))
    (hr : ∀ m ∈ f.ret.mods, ∃ s, m = .sym s) :
    ∃ s, prettySig name f = .ok s ∧ runFunc e n name f found run st args kws =
      (match run as with
        | .ok v => ⟨.ok (v, as, g), []⟩
        | .error x => ⟨.error x, [s]⟩, st') := by
  obtain ⟨s, hs⟩ : ∃ s, prettySig name f = .ok s := by
    cases hp : prettySig name f with
    | ok s => exact ⟨s, rfl⟩
    | error x =>
      obtain ⟨-, m, hm, h⟩ := (C95_raises name f x).1 hp
      obtain ⟨s, rfl⟩ := hr m hm
      exact absurd rfl (h s)
  refine ⟨s, hs, ?_⟩
  unfold callFunc at h
  unfold runFunc
  split at h
  · simp at h
  · next as' g' st1 hp =>
    rw [hp]
    by_cases hl : f.lockCall = true
    · simp [hl] at h
    · simp only [hl, Bool.false_eq_true, if_false, Prod.mk.injEq, CallOut.called.injEq] at h ⊢
      obtain ⟨⟨rfl, rfl⟩, rfl⟩ := h
      cases run as' with
      | ok v => simp
      | error x => simp [hs]

/-- C95 fails for results that point to arrays or functions: whatever the C function raises, the call raises
`TypeError`, and nothing is logged. -/
theorem C95_counterexample_call {A V : Type} (e : CtEnv) (n : Nat) (name : Str) (f : CFunc) (found : Except PyErr Unit)
    (run : List (Passed A) → Except PyErr V) (st st' : CtState) (args : List (PyArg A)) (kws : List (Str × PyArg A))
    (as : List (Passed A)) (g : List Nat) (h : callFunc e n f found st args kws = (.called as g, st')) (x : PyErr)
    (hx : run as = .error x) (m : CMod) (hm : m ∈ f.ret.mods) (hs : ∀ s, m ≠ .sym s) :
    runFunc e n name f found run st args kws = (⟨.error .typeError, []⟩, st') := by
  have hp := (C95_raises name f .typeError).2 ⟨rfl, m, hm, hs⟩
  unfold callFunc at h
  unfold runFunc
  split at h
  · simp at h
  · next as' g' st1 hp' =>
    rw [hp']
    by_cases hl : f.lockCall = true
    · simp [hl] at h
    · simp only [hl, Bool.false_eq_true, if_false, Prod.mk.injEq, CallOut.called.injEq] at h ⊢
      obtain ⟨⟨rfl, rfl⟩, rfl⟩ := h
      simp [hx, hp]

/-- C95: a call that does not reach the C function raises the same as before, unless `lock_call` is set; then it
raises that error or `TypeError`.  Nothing is returned. -/
theorem C95_raised {A V : Type} (e : CtEnv) (n : Nat) (name : Str) (f : CFunc) (found : Except PyErr Unit)
    (run : List (Passed A) → Except PyErr V) (st st' : CtState) (args : List (PyArg A)) (kws : List (Str × PyArg A))
    (x : PyErr) (h : callFunc e n f found st args kws = (.raised x, st')) :
    ∃ y l, runFunc e n name f found run st args kws = (⟨.error y, l⟩, st') ∧
      (y = x ∨ (y = .typeError ∧ f.lockCall = true ∧ ∃ m ∈ f.ret.mods, ∀ s, m ≠ .sym s)) := by
  unfold callFunc at h
  unfold runFunc
  split at h
  · next y st1 hp =>
    simp only [Prod.mk.injEq, CallOut.raised.injEq] at h
    obtain ⟨rfl, rfl⟩ := h
    exact ⟨y, [], by rw [hp], .inl rfl⟩
  · next as' g' st1 hp =>
    by_cases hl : f.lockCall = true
    · simp only [hl, if_true, Prod.mk.injEq, CallOut.raised.injEq] at h
      obtain ⟨rfl, rfl⟩ := h
      simp only [hp, hl, if_true]
      cases hs : prettySig name f with
      | ok m => exact ⟨_, _, rfl, .inl rfl⟩
      | error y =>
        obtain ⟨rfl, hm⟩ := (C95_raises name f y).1 hs
        exact ⟨_, _, rfl, .inr ⟨rfl, trivial, hm⟩⟩
    · simp [hl] at h

/-- C95 for functions of header files: `pretty_signature` of a wrapped function raises exactly if its result points to
an array or a function; otherwise the text reads as what the header declares, without `void`. -/
theorem C95_files_partial (w : Setup) (he : ExtraWords w.cfg) (fs : List (Str × Str)) (s : Store DefVal)
    (h : processFiles w Store.empty fs = .ok s) (name : Str) (r : CType) (ps : List Param) (q : List Qual)
    (hd : dget (s.defs .functions) name = some (.func (.func r ps q))) (e : CtEnv) (n : Nat) (st st' : CtState) (lock : Bool)
    (g : CFunc) (hg : initFunc e n st r ps lock = (.ok g, st')) :
    ((∃ x, prettySig name g = .error x) ↔ ∃ m ∈ r.mods, (∃ d, m = .arr d) ∨ ∃ ps, m = .fn ps) ∧
    ((∀ m ∈ r.mods, (∀ d, m ≠ .arr d) ∧ ∀ ps, m ≠ .fn ps) → (∀ c ∈ r.spec, c ≠ '(' ∧ c ≠ '*' ∧ c ≠ '&') →
      (∀ p ∈ ps, (∀ u, Inside u p.2.1 → LevelShow u) ∧ ∀ n, p.1 = some n → NameText n) →
      ∃ t, prettySig name g = .ok t ∧ readSig t = some ((r.spec, signs r.mods), name,
        (ps.filter (fun p => decide (¬ (p.2.1.spec = c%"void" ∧ p.2.1.mods = [])))).map fun p =>
          (typePy p.2.1, shownName p.1))) := by
  have hs := C69_files w he fs _ _ (C69_empty _ _) h
  obtain ⟨hname, r', ps', qs', heq, hr, hp, -⟩ := hs .functions name _ hd
  simp only [DefVal.func.injEq, HType.func.injEq] at heq
  obtain ⟨rfl, rfl, rfl⟩ := heq
  have hret := (C46_params e n st st' r ps lock g hg).2.1
  have hps := (initFunc_shape hg).1
  have hconv : hasConv r = false := by
    unfold initFunc at hg
    cases hc : hasConv r with
    | false => rfl
    | true => simp [hc] at hg
  constructor
  · constructor
    · rintro ⟨x, hx⟩
      obtain ⟨-, m, hm, hs⟩ := (C95_raises name g x).1 hx
      rw [hret] at hm
      refine ⟨m, hm, ?_⟩
      cases m with
      | sym s => exact absurd rfl (hs s)
      | arr d => exact .inl ⟨d, rfl⟩
      | fn ps => exact .inr ⟨ps, rfl⟩
    · rintro ⟨m, hm, hc⟩
      refine ⟨.typeError, (C95_raises name g _).2 ⟨rfl, m, by rw [hret]; exact hm, fun s => ?_⟩⟩
      rcases hc with ⟨d, rfl⟩ | ⟨d, rfl⟩ <;> simp
  · intro h1 h2 h3
    have hmods : ∀ m ∈ r.mods, m = .sym c%"*" ∨ m = .sym c%"&" := by
      intro m hm
      have hw := (hr r (.refl _)).mods m hm
      cases m with
      | arr d => exact absurd rfl ((h1 _ hm).1 d)
      | fn d => exact absurd rfl ((h1 _ hm).2 d)
      | sym s =>
        rcases hw with rfl | rfl | rfl | rfl
        · exact .inl rfl
        · exact .inr rfl
        all_goals
          exfalso
          have : hasConv r = true := by
            unfold hasConv
            rw [Bool.or_eq_true]
            exact .inr (List.any_eq_true.2 ⟨_, hm, by rfl⟩)
          rw [hconv] at this
          cases this
    have hnt : NameText name := by
      refine List.all_eq_true.2 fun c hc => ?_
      rcases hname.2.1 c hc with h | rfl | rfl
      · simp [isNameC, h]
      · rfl
      · rfl
    obtain ⟨t, ht1, ht2⟩ := C95_read name g hnt (by rw [hret]; exact ⟨h2, hmods⟩) (by
      intro p hp'
      rw [hps, List.mem_filter] at hp'
      exact ⟨fun u hu => ⟨(h3 p hp'.1).1 u hu, (hp p hp'.1 u hu).quals⟩, (h3 p hp'.1).2⟩)
    refine ⟨t, ht1, ?_⟩
    rw [ht2]
    unfold sigFacts
    rw [hret, hps]
    have hf : (fun p : Param => !isVoidParam p) = fun p => decide (¬ (p.2.1.spec = c%"void" ∧ p.2.1.mods = [])) := by
      funext p
      unfold isVoidParam
      cases p.2.1.mods <;> simp
    rw [hf]

/-- The signature of a function declared in a header. -/
def fileSig (text name : Str) : Option (Except PyErr Str) :=
  match fileGet text .functions name with
  | some (some (.func (.func r ps _))) => some (prettySig name ⟨r, ps.filter (fun p => !isVoidParam p), false, .void, []⟩)
  | _ => none

/-- The text, if there is one. -/
def sigText : Option (Except PyErr Str) → Option Str
  | some (.ok s) => some s
  | _ => none

/-- C95 at work. -/
theorem C95_example :
    sigText (fileSig c%"unsigned int **look(const char *key, int, int (*cb)(void));" c%"look") =
      some c%"unsigned int** look(Type('char', '*', type_quals=(('const',), ())) key, Type('int') None, Type('int', ((None, Type('void'), None),), '*') cb)" ∧
    sigText (fileSig c%"void stop(void);" c%"stop") = some c%"void stop()" ∧
    readSig c%"unsigned int** look(Type('char', '*') key, Type('int') None)" =
      some ((c%"unsigned int", c%"**"), c%"look", [(typePy ⟨c%"char", [.sym c%"*"], [some [], some []]⟩, c%"key"),
        (typePy ⟨c%"int", [], [some []]⟩, c%"None")]) :=
  ⟨by decide +kernel, by decide +kernel, by rfl⟩

/-- C95 fails for functions that return pointers to functions: their signature cannot be written. -/
theorem C95_counterexample_result :
    (match fileSig c%"int (*pick(int k))(int);" c%"pick" with
      | some (.error x) => decide (x = .typeError)
      | _ => false) = true := by decide +kernel

/-- C95: qualifiers of results are not shown. -/
theorem C95_counterexample_quals :
    sigText (fileSig c%"const char *name(void);" c%"name") = some c%"char* name()" ∧
    sigText (fileSig c%"char *name(void);" c%"name") = some c%"char* name()" := ⟨by decide +kernel, by decide +kernel⟩

end Pyclib
