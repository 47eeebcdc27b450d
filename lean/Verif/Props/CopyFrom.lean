import Verif.Props.Given
import Verif.Props.FileCache
/-! C102: a parser that copies the definitions of another one goes on as if it had read the headers of that one itself. -/
namespace Pyclib
open Spec

/-- Keyword arguments for macros are texts, those for macros with arguments are compiled macros. -/
def KwOk (kw : List (Kind × Str × DefVal)) : Prop :=
  ∀ x ∈ kw, (x.1 = .macros → (DefVal.macro? x.2.2).isSome = true) ∧ (x.1 = .fnmacros → (DefVal.fnmacro? x.2.2).isSome = true)

theorem kwargs_macOk : ∀ (kw : List (Kind × Str × DefVal)) (s : St), KwOk kw → MacOk s → MacOk (addKwargs s kw)
  | [], _, _, h => h
  | (k, n, v) :: kw, s, hk, h => by
    refine kwargs_macOk kw _ (fun x hx => hk x (by simp [hx])) ?_
    obtain ⟨h1, h2⟩ := hk (k, n, v) (by simp)
    refine ⟨?_, ?_⟩
    · simp only [defs_add]
      split
      · rename_i e; subst e; exact allK_dset h.mac n v (h1 rfl)
      · exact h.mac
    · simp only [defs_add]
      split
      · rename_i e; subst e; exact allK_dset h.fn n v (h2 rfl)
      · exact h.fn

theorem macOk_files {w : Setup} : ∀ {fs : List (Str × Str)} {s s' : St}, processFiles w s fs = .ok s' → MacOk s → MacOk s'
  | [], s, s', h, hs => by cases h; exact hs
  | (path, text) :: fs, s, s', h, hs => by
    simp only [processFiles] at h
    split at h
    · cases h
    · rename_i e
      exact macOk_files h (macOk_file e hs)

theorem macOk_same {s t : St} (hw : WFStore t) (hs : MacOk s) (h : ∀ k n, dget (t.defs k) n = dget (s.defs k) n) : MacOk t := by
  refine ⟨fun p hp => ?_, fun p hp => ?_⟩
  · have := dget_of_mem (hw.defs _) (show (p.1, p.2) ∈ t.defs .macros from hp)
    rw [h] at this
    exact hs.mac _ (dget_some_mem this)
  · have := dget_of_mem (hw.defs _) (show (p.1, p.2) ∈ t.defs .fnmacros from hp)
    rw [h] at this
    exact hs.fn _ (dget_some_mem this)

theorem asks_nothing (w : Setup) : ∀ (fs : List (Str × Str)) (s : St), AsksNoValue w (fun _ => False) s fs
  | [], _ => trivial
  | (_, _) :: fs, _ => ⟨fun _ h => h.elim, fun s' _ _ => asks_nothing w fs s'⟩

/-- Only what is visible in the tables matters for the files that follow. -/
theorem C102_visible {w : Setup} (hp : PyWords w.py) (hf : [] ∉ w.cfg.extraTypes) (hm : [] ∉ w.mods) {s t : St} (hs : MacOk s)
    (ht : MacOk t) (h : ∀ k n, dget (t.defs k) n = dget (s.defs k) n) (fs : List (Str × Str)) :
    (∀ e, processFiles w s fs = .error e → processFiles w t fs = .error e) ∧
    ∀ u, processFiles w s fs = .ok u → ∃ u', processFiles w t fs = .ok u' ∧ ∀ k n, dget (u'.defs k) n = dget (u.defs k) n := by
  obtain ⟨h1, h2⟩ := C101_files hp hf hm (N := fun _ => False) fs s t hs ht (fun k n _ => (h k n).symm) (asks_nothing w fs s)
  refine ⟨h1, fun u e => ?_⟩
  obtain ⟨u', e', h3⟩ := h2 u e
  exact ⟨u', e', fun k n => (h3 k n fun hv => hv.2).symm⟩

theorem processFiles_append {w : Setup} : ∀ (fs gs : List (Str × Str)) (s s1 : St), processFiles w s fs = .ok s1 →
    processFiles w s (fs ++ gs) = processFiles w s1 gs
  | [], gs, s, s1, h => by cases h; rfl
  | (path, text) :: fs, gs, s, s1, h => by
    simp only [List.cons_append, processFiles] at h ⊢
    split at h
    · cases h
    · exact processFiles_append fs gs _ s1 h

/-- The tables of a parser with these keyword arguments that copies from a parser with the tables `s1`
(`copy_from`, c_parser.py:521-539). -/
def copyOf (kw : List (Kind × Str × DefVal)) (s1 : St) : St := initStoreFrom ⟨[], [s1.fileDefs], none, [], kw⟩

/-- C102: let a parser read the files `fs`.  A second one with `copy_from` this parser that reads the files `gs` raises what a
parser for `fs + gs` raises, or has the same tables. -/
theorem C102_copy_partial {w : Setup} (hp : PyWords w.py) (hf : [] ∉ w.cfg.extraTypes) (hm : [] ∉ w.mods)
    {kw : List (Kind × Str × DefVal)} (hk : KwOk kw) {fs : List (Str × Str)} (hc : CacheSafe kw fs) {s1 : St}
    (h : processFiles w (initStore kw) fs = .ok s1) (gs : List (Str × Str)) :
    (∀ e, processFiles w (initStore kw) (fs ++ gs) = .error e ↔ processFiles w (copyOf kw s1) gs = .error e) ∧
    ∀ u, processFiles w (initStore kw) (fs ++ gs) = .ok u → ∃ u', processFiles w (copyOf kw s1) gs = .ok u' ∧
      ∀ k n, dget (u'.defs k) n = dget (u.defs k) n := by
  have hi := processFiles_rt hc h
  have hsame : ∀ k n, dget ((copyOf kw s1).defs k) n = dget (s1.defs k) n := fun k n => rt_reload hi k n
  have hm1 : MacOk s1 := macOk_files h (kwargs_macOk kw _ hk empty_macOk)
  have hw : WFStore (copyOf kw s1) := (rtInv_init kw).wf.run [.imp (rawOf s1.fileDefs)]
  rw [processFiles_append fs gs _ s1 h]
  obtain ⟨h1, h2⟩ := C102_visible hp hf hm hm1 (macOk_same hw hm1 hsame) hsame gs
  refine ⟨fun e => ⟨h1 e, fun he => ?_⟩, h2⟩
  cases hx : processFiles w s1 gs with
  | error e' =>
    rw [h1 e' hx] at he
    exact he
  | ok u =>
    obtain ⟨u', e', _⟩ := h2 u hx
    rw [e'] at he
    cases he

/-! ### Several parsers -/

/-- The tables of a parser that copies from several parsers with these tables. -/
def copyOfAll (ss : List St) : St := initStoreFrom ⟨[], ss.map (·.fileDefs), none, [], []⟩

/-- All groups of files have been read, each by its own parser. -/
def EachRead (w : Setup) : List (List (Str × Str)) → List St → Prop
  | [], [] => True
  | fs :: gr, s :: ss => CacheSafe [] fs ∧ processFiles w Store.empty fs = .ok s ∧ EachRead w gr ss
  | _, _ => False

theorem group_tables {w : Setup} (hp : PyWords w.py) (hf : [] ∉ w.cfg.extraTypes) (hm : [] ∉ w.mods) {r : Str × Str → St}
    {fs : List (Str × Str)} (hr : ∀ f ∈ fs, ∃ out, processFile w Store.empty f.1 f.2 = .ok (r f, out))
    (hpw : fs.Pairwise (Apart w Store.empty r)) {s : St} (hs : processFiles w Store.empty fs = .ok s) (k : Kind) (n : Str) :
    (∀ f ∈ fs, FileDefines (r f) f.1 f.2 k n → dget (s.defs k) n = dget ((r f).defs k) n) ∧
    ((∀ f ∈ fs, ¬ FileDefines (r f) f.1 f.2 k n) → dget (s.defs k) n = none) := by
  obtain ⟨u, h1, h2, h3⟩ := C85_files hp hf hm empty_macOk r hr hpw
  rw [hs] at h1
  cases h1
  exact ⟨fun f hf => h2 f hf k n, h3 k n⟩

theorem copies_tables {w : Setup} (hp : PyWords w.py) (hf : [] ∉ w.cfg.extraTypes) (hm : [] ∉ w.mods) {r : Str × Str → St} (k : Kind)
    (n : Str) : ∀ (gr : List (List (Str × Str))) (ss : List St) (t : St), EachRead w gr ss →
    (∀ f ∈ gr.flatten, ∃ out, processFile w Store.empty f.1 f.2 = .ok (r f, out)) → gr.flatten.Pairwise (Apart w Store.empty r) →
    (∀ f ∈ gr.flatten, FileDefines (r f) f.1 f.2 k n →
      dget (((ss.map (·.fileDefs)).foldl (fun s d => (importDict s (rawOf d)).1) t).defs k) n = (dget ((r f).defs k) n).or (dget (t.defs k) n)) ∧
    ((∀ f ∈ gr.flatten, ¬ FileDefines (r f) f.1 f.2 k n) →
      dget (((ss.map (·.fileDefs)).foldl (fun s d => (importDict s (rawOf d)).1) t).defs k) n = dget (t.defs k) n)
  | [], [], t, _, _, _ => ⟨fun _ h => (nomatch h), fun _ => rfl⟩
  | fs :: gr, s :: ss, t, he, hr, hpw => by
    obtain ⟨hc, hs, he'⟩ := he
    rw [List.flatten_cons] at hr hpw
    obtain ⟨hpw1, hpw2, hpw3⟩ := List.pairwise_append.1 hpw
    obtain ⟨g1, g2⟩ := group_tables hp hf hm (fun f hf => hr f (List.mem_append_left _ hf)) hpw1 hs k n
    have hi : RTInv (initStore []) s := processFiles_rt (kw := []) hc hs
    have hstep : dget ((importDict t (rawOf s.fileDefs)).1.defs k) n = (dget (s.defs k) n).or (dget (t.defs k) n) := by
      rw [defs_importDict _ _ (goodData_rawOf hi.wf), hi.last]
    obtain ⟨i1, i2⟩ := copies_tables hp hf hm (r := r) k n gr ss (importDict t (rawOf s.fileDefs)).1 he'
      (fun f hf => hr f (List.mem_append_right _ hf)) hpw2
    simp only [List.map_cons, List.foldl_cons, List.flatten_cons]
    refine ⟨fun f hf hd => ?_, fun hn => ?_⟩
    · rcases List.mem_append.1 hf with hf | hf
      · rw [i2 fun g hg hd' => ((hpw3 f hf g hg k n).1 hd).2 hd', hstep, g1 f hf hd]
      · rw [i1 f hf hd, hstep, g2 fun g hg hd' => ((hpw3 g hg f hf k n).1 hd').2 hd]
        rfl
    · rw [i2 fun f hf => hn f (List.mem_append_right _ hf), hstep, g2 fun f hf => hn f (List.mem_append_left _ hf)]
      rfl
  | [], _ :: _, _, he, _, _ => he.elim
  | _ :: _, [], _, he, _, _ => he.elim

theorem wf_copies {w : Setup} : ∀ (gr : List (List (Str × Str))) (ss : List St) (t : St), EachRead w gr ss → WFStore t →
    WFStore ((ss.map (·.fileDefs)).foldl (fun s d => (importDict s (rawOf d)).1) t)
  | [], [], _, _, h => h
  | fs :: gr, s :: ss, t, he, h => wf_copies gr ss _ he.2.2 (h.run [.imp (rawOf s.fileDefs)])
  | [], _ :: _, _, he, _ => he.elim
  | _ :: _, [], _, he, _ => he.elim

/-- C102, several parsers: groups of headers, each read by its own parser.  If no header defines what another one defines or asks
for, then `copy_from` all these parsers is as good as to read all the headers, for whatever files `gs` follow. -/
theorem C102_many_partial {w : Setup} (hp : PyWords w.py) (hf : [] ∉ w.cfg.extraTypes) (hm : [] ∉ w.mods) {r : Str × Str → St}
    {gr : List (List (Str × Str))} {ss : List St} (he : EachRead w gr ss)
    (hr : ∀ f ∈ gr.flatten, ∃ out, processFile w Store.empty f.1 f.2 = .ok (r f, out))
    (hpw : gr.flatten.Pairwise (Apart w Store.empty r)) (gs : List (Str × Str)) :
    (∀ e, processFiles w Store.empty (gr.flatten ++ gs) = .error e → processFiles w (copyOfAll ss) gs = .error e) ∧
    ∀ u, processFiles w Store.empty (gr.flatten ++ gs) = .ok u → ∃ u', processFiles w (copyOfAll ss) gs = .ok u' ∧
      ∀ k n, dget (u'.defs k) n = dget (u.defs k) n := by
  obtain ⟨s1, h1, h2, h3⟩ := C85_files hp hf hm empty_macOk r hr hpw
  have hsame : ∀ k n, dget ((copyOfAll ss).defs k) n = dget (s1.defs k) n := by
    intro k n
    obtain ⟨c1, c2⟩ := copies_tables hp hf hm (r := r) k n gr ss Store.empty he hr hpw
    by_cases hd : ∃ f ∈ gr.flatten, FileDefines (r f) f.1 f.2 k n
    · obtain ⟨f, hf, hk⟩ := hd
      rw [h2 f hf k n hk]
      exact (c1 f hf hk).trans (Option.or_none)
    · have hd' : ∀ f ∈ gr.flatten, ¬ FileDefines (r f) f.1 f.2 k n := fun f hf hk => hd ⟨f, hf, hk⟩
      rw [h3 k n hd']
      exact c2 hd'
  have hm1 : MacOk s1 := macOk_files h1 empty_macOk
  rw [processFiles_append _ gs _ s1 h1]
  exact C102_visible hp hf hm hm1 (macOk_same (wf_copies gr ss _ he WFStore.empty) hm1 hsame) hsame gs

/-! ### Example -/

/-- A header that goes on with what `cacheFiles` define. -/
def copyFiles : List (Str × Str) := [(c%"c.h", c%"#ifndef B\nint z[A];\n#endif\n#ifdef K\nstruct S { int m[A]; };\n#endif\n#undef A")]

/-- Kinds of names after two parsers, the second one copying from the first one. -/
def afterCopy (kw : List (Kind × Str × DefVal)) (fs gs : List (Str × Str)) (k : Kind) (n : Str) : Option (Bool × Bool) :=
  match processFiles exSetup (initStore kw) fs, processFiles exSetup (initStore kw) (fs ++ gs) with
  | .ok s1, .ok u =>
    match processFiles exSetup (copyOf kw s1) gs with
    | .ok u' => some ((dget (u.defs k) n).isSome, (dget (u'.defs k) n).isSome)
    | .error _ => none
  | _, _ => none

theorem C102_example :
    (∃ s1 u u', processFiles exSetup (initStore [(.macros, c%"K", .macro c%"1")]) cacheFiles = .ok s1 ∧
      processFiles exSetup (initStore [(.macros, c%"K", .macro c%"1")]) (cacheFiles ++ copyFiles) = .ok u ∧
      processFiles exSetup (copyOf [(.macros, c%"K", .macro c%"1")] s1) copyFiles = .ok u' ∧
      ∀ k n, dget (u'.defs k) n = dget (u.defs k) n) ∧
    afterCopy [(.macros, c%"K", .macro c%"1")] cacheFiles copyFiles .structs c%"S" = some (true, true) ∧
    afterCopy [(.macros, c%"K", .macro c%"1")] cacheFiles copyFiles .variables c%"z" = some (true, true) ∧
    afterCopy [(.macros, c%"K", .macro c%"1")] cacheFiles copyFiles .macros c%"A" = some (false, false) := by
  have h3 : afterCopy [(.macros, c%"K", .macro c%"1")] cacheFiles copyFiles .structs c%"S" = some (true, true) := by decide +kernel
  refine ⟨?_, h3, by decide +kernel, by decide +kernel⟩
  unfold afterCopy at h3
  split at h3
  · rename_i s1 u e1 e2
    obtain ⟨u', e3, h⟩ := (C102_copy_partial exSetup_words (by decide) (by decide)
      (fun x hx => by rw [List.mem_singleton.1 hx]; exact ⟨fun _ => rfl, fun h => nomatch h⟩) C68_safe e1 copyFiles).2 u e2
    exact ⟨s1, u, u', e1, e2, e3, h⟩
  · cases h3

/-- A header that uses all of `exHeaders`. -/
def manyFiles : List (Str × Str) := [(c%"z.h", c%"#ifdef A_H\nstruct pt q[A_SIZE];\nint mix(num c, struct pt *p);\n#endif\nint v[SQR(2)];")]

/-- The tables of each header alone. -/
def manyParts : List St := exHeaders.map (aloneOf exSetup Store.empty)

theorem many_read : EachRead exSetup (exHeaders.map fun f => [f]) manyParts := by
  have h : ∀ f ∈ exHeaders, (match processFile exSetup Store.empty f.1 f.2 with
    | .ok _ => true
    | .error _ => false) = true := by decide +kernel
  have key : ∀ l : List (Str × Str), (∀ f ∈ l, f ∈ exHeaders) → EachRead exSetup (l.map fun f => [f]) (l.map (aloneOf exSetup Store.empty)) := by
    intro l
    induction l with
    | nil => intro _; trivial
    | cons f l ih =>
      intro hl
      obtain ⟨out, e⟩ := aloneOf_ok (h f (hl f (by simp)))
      refine ⟨⟨by simp, fun p hp n _ => ⟨fun v hv => (nomatch hv), fun q hq hne => ?_⟩⟩, ?_, ih fun g hg => hl g (by simp [hg])⟩
      · rw [List.mem_singleton.1 hp, List.mem_singleton.1 hq] at hne
        exact absurd rfl hne
      · obtain ⟨path, text⟩ := f
        simp only [processFiles]
        simp only at e
        rw [e]
  exact key exHeaders fun _ h => h

theorem C102_many_example : ∃ u u', processFiles exSetup Store.empty (exHeaders ++ manyFiles) = .ok u ∧
    processFiles exSetup (copyOfAll manyParts) manyFiles = .ok u' ∧ (∀ k n, dget (u'.defs k) n = dget (u.defs k) n) ∧
    ((dget (u.defs .functions) c%"mix").isSome && (dget (u.defs .variables) c%"v").isSome && (dget (u.defs .structs) c%"pt").isSome) = true := by
  obtain ⟨u, e, hu⟩ := files_check (fs := exHeaders ++ manyFiles) (p := fun u => (dget (u.defs .functions) c%"mix").isSome &&
    (dget (u.defs .variables) c%"v").isSome && (dget (u.defs .structs) c%"pt").isSome) (by decide +kernel)
  have hflat : (exHeaders.map fun f => [f]).flatten = exHeaders := rfl
  have h : ∀ f ∈ exHeaders, (match processFile exSetup Store.empty f.1 f.2 with
    | .ok _ => true
    | .error _ => false) = true := by decide +kernel
  obtain ⟨u', e', h'⟩ := (C102_many_partial exSetup_words (by decide) (by decide) many_read
    (fun f hf => aloneOf_ok (h f (hflat ▸ hf))) (hflat ▸ exHeaders_apart) manyFiles).2 u (by rw [hflat]; exact e)
  exact ⟨u, u', e, e', h', hu⟩

/-- Headers that need each other cannot be read by different parsers. -/
theorem C102_counterexample_apart :
    (∃ u, processFiles exSetup Store.empty [(c%"a.h", c%"#define X 1"), (c%"b.h", c%"#ifdef X\nint y;\n#endif")] = .ok u ∧
      (dget (u.defs .variables) c%"y").isSome = true) ∧
    ∃ u, processFiles exSetup (copyOfAll ([(c%"a.h", c%"#define X 1"), (c%"b.h", c%"#ifdef X\nint y;\n#endif")].map
      (aloneOf exSetup Store.empty))) [] = .ok u ∧ (dget (u.defs .variables) c%"y").isSome = false :=
  ⟨files_check (by decide +kernel), ⟨_, rfl, by decide +kernel⟩⟩

/-- Outside `CacheSafe` the claim fails: a macro that another file has removed comes back and selects other text. -/
theorem C102_counterexample_undef :
    afterCopy [] [(c%"a.h", c%"#define X 1"), (c%"b.h", c%"#undef X")] [(c%"c.h", c%"#ifdef X\nint y;\n#endif")] .variables c%"y" =
      some (false, true) := by decide +kernel

end Pyclib
