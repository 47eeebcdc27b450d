import Verif.Props.CopyFrom
import Verif.Spec.Unread
/-! C103: definitions that the headers do not ask for do not matter. -/
namespace Pyclib
open Spec

/-- C103: tables that differ in definitions which no file asks for: the same exception, or the same text and tables that differ in
nothing else. -/
theorem C103_unread {w : Setup} (hp : PyWords w.py) (hf : [] ∉ w.cfg.extraTypes) (hm : [] ∉ w.mods) {R : Kind → Str → Prop} :
    ∀ (fs : List (Str × Str)) (s t : St), MacOk s → MacOk t → AgreeOn (fun k n => ¬ R k n) s t → AsksNone w R s fs →
      (∀ e, processFiles w s fs = .error e ↔ processFiles w t fs = .error e) ∧
      ∀ u, processFiles w s fs = .ok u → ∃ u', processFiles w t fs = .ok u' ∧ ∀ k n, ¬ R k n → dget (u.defs k) n = dget (u'.defs k) n
  | [], s, t, _, _, h, _ => ⟨fun _ => ⟨fun h => (nomatch h), fun h => (nomatch h)⟩, fun u e => by cases e; exact ⟨t, rfl, h⟩⟩
  | (path, text) :: fs, s, t, hs, ht, h, hr => by
    have h1 : AgreeOn (FileReads w s path text) s t := fun k n hk => h k n fun hR => hr.1 k n hR hk
    obtain ⟨h2, h3⟩ := C85_file hp hf hm hs ht h1
    simp only [processFiles]
    cases e : processFile w s path text with
    | error e1 => rw [h2 e1 e]; exact ⟨fun _ => Iff.rfl, fun _ h => (nomatch h)⟩
    | ok x =>
      obtain ⟨s', out⟩ := x
      obtain ⟨t', e', h4⟩ := h3 s' out e
      rw [e']
      exact C103_unread hp hf hm fs s' t' (macOk_file e hs) (macOk_file e' ht) (h4.agree (setFile_agree h (some path))) (hr.2 s' out e)

/-- C103, keyword arguments: definitions given to the constructor that no file asks for add themselves and nothing else. -/
theorem C103_kwargs {w : Setup} (hp : PyWords w.py) (hf : [] ∉ w.cfg.extraTypes) (hm : [] ∉ w.mods)
    {kw : List (Kind × Str × DefVal)} (hk : KwOk kw) {fs : List (Str × Str)} (ha : AsksNone w (InTables (initStore kw)) Store.empty fs) :
    (∀ e, processFiles w Store.empty fs = .error e ↔ processFiles w (initStore kw) fs = .error e) ∧
    ∀ u, processFiles w Store.empty fs = .ok u → ∃ u', processFiles w (initStore kw) fs = .ok u' ∧
      ∀ k n, dget ((initStore kw).defs k) n = none → dget (u.defs k) n = dget (u'.defs k) n := by
  obtain ⟨h1, h2⟩ := C103_unread hp hf hm fs Store.empty (initStore kw) empty_macOk (kwargs_macOk kw _ hk empty_macOk)
    (fun k n h => (Classical.not_not.1 h).symm) ha
  refine ⟨h1, fun u e => ?_⟩
  obtain ⟨u', e', h3⟩ := h2 u e
  exact ⟨u', e', fun k n h => h3 k n fun hR => hR h⟩

/-- C103, `copy_from`: definitions of a parser that no file asks for add themselves and nothing else. -/
theorem C103_copy {w : Setup} (hp : PyWords w.py) (hf : [] ∉ w.cfg.extraTypes) (hm : [] ∉ w.mods) {gs : List (Str × Str)} {s1 : St}
    (hc : CacheSafe [] gs) (h : processFiles w Store.empty gs = .ok s1) {fs : List (Str × Str)}
    (ha : AsksNone w (InTables s1) Store.empty fs) :
    (∀ e, processFiles w Store.empty fs = .error e ↔ processFiles w (copyOf [] s1) fs = .error e) ∧
    ∀ u, processFiles w Store.empty fs = .ok u → ∃ u', processFiles w (copyOf [] s1) fs = .ok u' ∧
      ∀ k n, dget (s1.defs k) n = none → dget (u.defs k) n = dget (u'.defs k) n := by
  have hi : RTInv (initStore []) s1 := processFiles_rt (kw := []) hc h
  have hsame : ∀ k n, dget ((copyOf [] s1).defs k) n = dget (s1.defs k) n := fun k n => rt_reload hi k n
  have hw : WFStore (copyOf [] s1) := (rtInv_init []).wf.run [.imp (rawOf s1.fileDefs)]
  have hm1 : MacOk s1 := macOk_files h empty_macOk
  obtain ⟨h1, h2⟩ := C103_unread hp hf hm fs Store.empty (copyOf [] s1) empty_macOk (macOk_same hw hm1 hsame)
    (fun k n h => ((hsame k n).trans (Classical.not_not.1 h)).symm) ha
  refine ⟨h1, fun u e => ?_⟩
  obtain ⟨u', e', h3⟩ := h2 u e
  exact ⟨u', e', fun k n h => h3 k n fun hR => hR h⟩

/-! ### Example -/

/-- A check that files ask for none of these. -/
def asksNoneB (w : Setup) (R : List (Kind × Str)) : St → List (Str × Str) → Bool
  | _, [] => true
  | s, f :: fs => (match fileReadsL w s f.1 f.2 with
    | some l => R.all fun x => !l.contains x
    | none => false) && asksNoneB w R (aloneOf w s f) fs

theorem asksNone_check {w : Setup} {L : List (Kind × Str)} {R : Kind → Str → Prop} (hR : ∀ k n, R k n → (k, n) ∈ L) :
    ∀ {fs : List (Str × Str)} {s : St}, asksNoneB w L s fs = true → AsksNone w R s fs
  | [], _, _ => trivial
  | (path, text) :: fs, s, h => by
    simp only [asksNoneB, Bool.and_eq_true] at h
    refine ⟨fun k n hn hr => ?_, fun s' out e => ?_⟩
    · have h1 := h.1
      split at h1
      · rename_i l e
        have := List.all_eq_true.1 h1 _ (hR k n hn)
        simp only [Bool.not_eq_true', List.contains_eq_mem, decide_eq_false_iff_not] at this
        exact this (fileReads_mem e hr)
      · cases h1
    · have h2 := h.2
      rw [aloneOf, e] at h2
      exact asksNone_check hR h2

/-- Macros that `exHeaders` do not ask for. -/
def unreadKw : List (Kind × Str × DefVal) := [(.macros, c%"DEBUG", .macro c%"1"), (.macros, c%"paint_t", .macro c%"int")]

theorem unread_in (k : Kind) (n : Str) (h : InTables (initStore unreadKw) k n) :
    (k, n) ∈ [(Kind.macros, c%"DEBUG"), (Kind.macros, c%"paint_t")] := by
  by_cases hk : k = .macros
  · subst hk
    have : (initStore unreadKw).defs .macros = [(c%"DEBUG", .macro c%"1"), (c%"paint_t", .macro c%"int")] := rfl
    rw [InTables, this] at h
    simp only [dget] at h
    split at h
    · rename_i e; subst e; simp
    · split at h
      · rename_i e; subst e; simp
      · exact absurd rfl h
  · have : (initStore unreadKw).defs k = [] := by
      cases k <;> first | rfl | exact absurd rfl hk
    rw [InTables, this] at h
    exact absurd rfl h

theorem C103_example : ∃ u u', processFiles exSetup Store.empty exHeaders = .ok u ∧
    processFiles exSetup (initStore unreadKw) exHeaders = .ok u' ∧
    (∀ k n, dget ((initStore unreadKw).defs k) n = none → dget (u.defs k) n = dget (u'.defs k) n) ∧
    ((dget (u.defs .functions) c%"paint").isSome && (dget (u.defs .structs) c%"pt").isSome) = true := by
  obtain ⟨u, e, hu⟩ := files_check (fs := exHeaders) (p := fun u => (dget (u.defs .functions) c%"paint").isSome &&
    (dget (u.defs .structs) c%"pt").isSome) (by decide +kernel)
  obtain ⟨u', e', h'⟩ := (C103_kwargs exSetup_words (by decide) (by decide) (kw := unreadKw)
    (fun x hx => by
      simp only [unreadKw, List.mem_cons, List.not_mem_nil, or_false] at hx
      rcases hx with rfl | rfl <;> exact ⟨fun _ => rfl, fun h => (nomatch h)⟩)
    (asksNone_check unread_in (by decide +kernel))).2 u e
  exact ⟨u, u', e, e', h', hu⟩

/-- A definition that a header does ask for changes other names. -/
theorem C103_counterexample :
    (∃ u, processFiles exSetup Store.empty [(c%"a.h", c%"#ifdef DEBUG\nint y;\n#endif")] = .ok u ∧ (dget (u.defs .variables) c%"y").isNone = true) ∧
    ∃ u, processFiles exSetup (initStore unreadKw) [(c%"a.h", c%"#ifdef DEBUG\nint y;\n#endif")] = .ok u ∧
      (dget (u.defs .variables) c%"y").isSome = true := by
  refine ⟨files_check (by decide +kernel), ?_⟩
  have h : (match processFiles exSetup (initStore unreadKw) [(c%"a.h", c%"#ifdef DEBUG\nint y;\n#endif")] with
    | .ok u => (dget (u.defs .variables) c%"y").isSome
    | .error _ => false) = true := by decide +kernel
  split at h
  · rename_i u e
    exact ⟨u, e, h⟩
  · cases h

end Pyclib
