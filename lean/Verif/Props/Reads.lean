import Verif.Proof.Reads
/-! C85: files that have nothing to do with each other can be processed in any order. -/
namespace Pyclib
open Spec

/-- **C85.** Whatever the text: what `parse_defs` does depends on the definitions that the text asks for and on nothing else.
With tables that agree on these it raises the same, or makes the same calls of `add_def`. -/
theorem C85_parse {w : Setup} (hp : PyWords w.py) (hf : [] ∉ w.cfg.extraTypes) (hm : [] ∉ w.mods)
    (packs : List (Nat × Option Nat)) {s t : St} {text : Str} (h : AgreeOn (TextReads w text) s t) :
    (parseDefs (w.gram packs text) t text).2 = (parseDefs (w.gram packs text) s text).2 ∧
    SameOps (fun _ => False) s (parseDefs (w.gram packs text) s text).1 t (parseDefs (w.gram packs text) t text).1 := by
  have := sim_parseDefs (noEmpty_gram hf hm packs text) (coversText_of hp packs fun _ _ h => h) (sameOn_of h)
  exact ⟨this.1.symm, this.2.effect⟩

theorem setFile_agree {R : Kind → Str → Prop} {s t : St} (h : AgreeOn R s t) (f : Option Str) :
    AgreeOn R (setFile s f) (setFile t f) := h

theorem setFile_macOk {s : St} (h : MacOk s) (f : Option Str) : MacOk (setFile s f) := ⟨h.mac, h.fn⟩

/-- Both runs of `preprocess`. -/
theorem preprocess_same {w : Setup} (hp : PyWords w.py) {s t : St} (hs : MacOk s) (ht : MacOk t) {path text : Str}
    {R : Kind → Str → Prop} (hr : ∀ k n, FileReads w s path text k n → R k n) (h : AgreeOn R s t) :
    StepRel (fun n => .undef n ∈ ppLines text) (setFile s (some path)) (setFile t (some path))
      (preprocess w.sem (setFile s (some path)) (removeComments text))
      (preprocess w.sem (setFile t (some path)) (removeComments text)) := by
  have h1 := ppRun_same hp (U := fun n => .undef n ∈ ppLines text) (R := R) (ppLines text) 0
    (PPState.init (setFile s (some path))) (setFile t (some path)) (setFile_macOk hs _) (setFile_macOk ht _)
    (fun n hn => hn) (fun a l b st os e1 e2 k n hk => hr k n (.inl ⟨a, l, b, st, os, e1, e2, hk⟩)) (setFile_agree h _)
  unfold preprocess
  rw [show (splitOnC '\n' (joinLines (removeComments text))).map classify = ppLines text from rfl]
  revert h1
  rw [show (PPState.init (setFile s (some path))).mapE (fun _ => setFile t (some path)) =
    PPState.init (setFile t (some path)) from rfl]
  generalize ppRun w.sem 0 (PPState.init (setFile s (some path))) (ppLines text) = x
  generalize ppRun w.sem 0 (PPState.init (setFile t (some path))) (ppLines text) = y
  intro h1
  cases h1 with
  | error e => exact .error e
  | ok a env o h2 h3 h4 => exact StepRel.ok a env _ h2 h3 h4

/-- **C85.** Whatever the text of a file: what `process_all` does with it depends on the definitions that it asks for and on
nothing else.  With tables that agree on these the same exception is raised, or the preprocessed text is the same and the
same calls of `add_def` and `rem_def` are made. -/
theorem C85_file {w : Setup} (hp : PyWords w.py) (hf : [] ∉ w.cfg.extraTypes) (hm : [] ∉ w.mods) {s t : St} (hs : MacOk s)
    (ht : MacOk t) {path text : Str} (h : AgreeOn (FileReads w s path text) s t) :
    (∀ e, processFile w s path text = .error e → processFile w t path text = .error e) ∧
    ∀ s' out, processFile w s path text = .ok (s', out) → ∃ t', processFile w t path text = .ok (t', out) ∧
      SameOps (fun n => .undef n ∈ ppLines text) (setFile s (some path)) s' (setFile t (some path)) t' := by
  have h1 := preprocess_same hp hs ht (fun _ _ h => h) h
  unfold processFile
  revert h1
  generalize hx : preprocess w.sem (setFile s (some path)) (removeComments text) = x
  generalize preprocess w.sem (setFile t (some path)) (removeComments text) = y
  intro h1
  cases h1 with
  | error e => exact ⟨fun _ h => h, fun _ _ h => nomatch h⟩
  | ok a env o h2 h3 h4 =>
    have h5 : AgreeOn (TextReads w o) a.env env := fun k n hk =>
      h2.agree (setFile_agree h (some path)) k n (.inr ⟨a, o, hx, hk⟩)
    obtain ⟨h6, h7⟩ := C85_parse hp hf hm a.packList h5
    simp only [PPState.mapE]
    revert h6 h7
    generalize parseDefs (w.gram a.packList o) a.env o = x
    generalize parseDefs (w.gram a.packList o) env o = y
    obtain ⟨s1, r1⟩ := x
    obtain ⟨t1, r2⟩ := y
    rintro h6 h7
    simp only at h6 h7
    subst h6
    cases r2 with
    | some e => exact ⟨fun _ h => h, fun _ _ h => nomatch h⟩
    | none =>
      refine ⟨fun _ h => (nomatch h), fun s' out hs' => ?_⟩
      cases hs'
      exact ⟨t1, rfl, h2.trans (h7.mono fun _ h => h.elim)⟩

/-! ### What a file defines -/

theorem recorded_kept {U : Str → Prop} {k : Kind} {n : Str} (hU : ¬ (k = .macros ∧ U n)) (f : Option Str) :
    ∀ (ops : List (Op DefVal)) (s : St), (∀ o ∈ ops, isEdit U o) → recorded s f k n ≠ none →
      recorded (runOps s ops) f k n ≠ none
  | [], _, _, h => h
  | .add k' n' v :: ops, s, ho, h => by
    refine recorded_kept hU f ops _ (fun o hm => ho o (by simp [hm])) ?_
    show recorded (addDef s k' n' v) f k n ≠ none
    rw [recorded_addDef]
    split
    · simp
    · exact h
  | .rem k' n' :: ops, s, ho, h => by
    have h0 := ho (.rem k' n') (by simp)
    simp only [isEdit] at h0
    obtain ⟨rfl, hu⟩ := h0
    refine recorded_kept hU f ops _ (fun o hm => ho o (by simp [hm])) ?_
    show recorded (remDef s .macros n').1 f k n ≠ none
    rw [recorded_remDef, if_neg]
    · exact h
    · rintro ⟨_, e1, e2, _⟩
      exact hU ⟨e1.symm, e2 ▸ hu⟩
  | .file g :: ops, s, ho, _ => (ho (.file g) (by simp)).elim
  | .imp d :: ops, s, ho, _ => (ho (.imp d) (by simp)).elim

theorem runOps_untouched {U : Str → Prop} {k : Kind} {n : Str} (hU : ¬ (k = .macros ∧ U n)) :
    ∀ (ops : List (Op DefVal)) (s t : St), (∀ o ∈ ops, isEdit U o) →
      recorded (runOps s ops) (baseOf s.cur) k n = none → dget ((runOps t ops).defs k) n = dget (t.defs k) n
  | [], _, _, _, _ => rfl
  | .add k' n' v :: ops, s, t, ho, h => by
    have ho' : ∀ o ∈ ops, isEdit U o := fun o hm => ho o (by simp [hm])
    by_cases e : k' = k ∧ n' = n
    · exfalso
      refine recorded_kept hU (baseOf s.cur) ops (addDef s k' n' v) ho' ?_ h
      rw [recorded_addDef, if_pos ⟨rfl, e⟩]
      simp
    · have := runOps_untouched hU ops (addDef s k' n' v) (addDef t k' n' v) ho' h
      show dget ((runOps (addDef t k' n' v) ops).defs k) n = _
      rw [this, defs_addDef, if_neg e]
  | .rem k' n' :: ops, s, t, ho, h => by
    have ho' : ∀ o ∈ ops, isEdit U o := fun o hm => ho o (by simp [hm])
    have h0 := ho (.rem k' n') (by simp)
    simp only [isEdit] at h0
    obtain ⟨rfl, hu⟩ := h0
    have := runOps_untouched hU ops (remDef s .macros n').1 (remDef t .macros n').1 ho' (by rw [remDef_cur]; exact h)
    show dget ((runOps (remDef t .macros n').1 ops).defs k) n = _
    rw [this, defs_remDef, if_neg]
    rintro ⟨e1, e2⟩
    exact hU ⟨e1.symm, e2 ▸ hu⟩
  | .file g :: ops, s, _, ho, _ => (ho (.file g) (by simp)).elim
  | .imp d :: ops, s, _, ho, _ => (ho (.imp d) (by simp)).elim

theorem macOk_file {w : Setup} {s s' : St} {path text out : Str} (h : processFile w s path text = .ok (s', out))
    (hs : MacOk s) : MacOk s' := by
  unfold processFile at h
  split at h
  · cases h
  · rename_i st o e
    have h1 := (preprocess_semSim (world_sim w) (setFile s (some path)) (setFile_macOk hs _) (removeComments text)).2 st o e
    have h2 := adds_parseDefs (w.gram st.packList o) st.env o
    split at h
    · rename_i s2 e2
      cases h
      rw [e2] at h2
      exact macOk_adds h1 h2
    · cases h

/-- Two files have nothing to do with each other: what one of them defines, the other neither defines nor asks for.  `s` are
the tables before, `r f` the tables after the file `f` alone. -/
def Spec.Apart (w : Setup) (s : St) (r : Str × Str → St) (f g : Str × Str) : Prop :=
  ∀ k n, (FileDefines (r f) f.1 f.2 k n → ¬ FileReads w s g.1 g.2 k n ∧ ¬ FileDefines (r g) g.1 g.2 k n) ∧
    (FileDefines (r g) g.1 g.2 k n → ¬ FileReads w s f.1 f.2 k n)

theorem files_apart {w : Setup} (hp : PyWords w.py) (hf : [] ∉ w.cfg.extraTypes) (hm : [] ∉ w.mods) {s : St} (hs : MacOk s)
    (r : Str × Str → St) : ∀ (fs : List (Str × Str)) (t : St), MacOk t →
    (∀ f ∈ fs, ∃ out, processFile w s f.1 f.2 = .ok (r f, out)) → fs.Pairwise (Apart w s r) →
    (∀ f ∈ fs, AgreeOn (FileReads w s f.1 f.2) s t ∧ AgreeOn (FileDefines (r f) f.1 f.2) s t) →
    ∃ u, processFiles w t fs = .ok u ∧
      (∀ f ∈ fs, ∀ k n, FileDefines (r f) f.1 f.2 k n → dget (u.defs k) n = dget ((r f).defs k) n) ∧
      ∀ k n, (∀ f ∈ fs, ¬ FileDefines (r f) f.1 f.2 k n) → dget (u.defs k) n = dget (t.defs k) n
  | [], t, _, _, _, _ => ⟨t, rfl, by simp, fun _ _ _ => rfl⟩
  | (path, text) :: fs, t, ht, hr, hpw, ha => by
    obtain ⟨out, h1⟩ := hr (path, text) (by simp)
    obtain ⟨ha1, ha2⟩ := ha (path, text) (by simp)
    obtain ⟨t', h2, ops, h3, h4, h5⟩ := (C85_file hp hf hm hs ht ha1).2 _ _ h1
    obtain ⟨hp1, hp2⟩ := List.pairwise_cons.1 hpw
    have hun : ∀ k n, ¬ FileDefines (r (path, text)) path text k n → dget (t'.defs k) n = dget (t.defs k) n := by
      intro k n hn
      rw [h5]
      refine runOps_untouched (U := fun n => .undef n ∈ ppLines text) (fun hu => hn (.inr hu)) ops (setFile s (some path))
        (setFile t (some path)) h3 ?_
      rw [← h4]
      cases e : recorded (r (path, text)) (some (basename path)) k n with
      | none => exact e
      | some v => exact absurd (.inl (by rw [e]; simp)) hn
    have hto : AgreeOn (FileDefines (r (path, text)) path text) (r (path, text)) t' := by
      rw [h5, h4]
      exact runOps_agree ops _ _ h3 (h4 ▸ ha2)
    have hrest : ∀ f ∈ fs, AgreeOn (FileReads w s f.1 f.2) s t' ∧ AgreeOn (FileDefines (r f) f.1 f.2) s t' := by
      intro f hf
      obtain ⟨b1, b2⟩ := ha f (by simp [hf])
      refine ⟨fun k n hk => ?_, fun k n hk => ?_⟩
      · rw [hun k n fun hd => ((hp1 f hf k n).1 hd).1 hk]
        exact b1 k n hk
      · rw [hun k n fun hd => ((hp1 f hf k n).1 hd).2 hk]
        exact b2 k n hk
    obtain ⟨u, h6, h7, h8⟩ := files_apart hp hf hm hs r fs t' (macOk_file h2 ht) (fun f hf => hr f (by simp [hf])) hp2 hrest
    refine ⟨u, by simp only [processFiles, h2, h6], fun f hf k n hk => ?_, fun k n hk => ?_⟩
    · rcases List.mem_cons.1 hf with rfl | hf
      · rw [h8 k n fun g hg hd => ((hp1 g hg k n).1 hk).2 hd]
        exact (hto k n hk).symm
      · exact h7 f hf k n hk
    · rw [h8 k n fun g hg => hk g (by simp [hg])]
      exact hun k n (hk _ (by simp))

/-- **C85.** Files of which none defines what another one defines or asks for: `process_all` succeeds if it succeeds with
each of them alone, and then every definition of a file is what the file alone gives. -/
theorem C85_files {w : Setup} (hp : PyWords w.py) (hf : [] ∉ w.cfg.extraTypes) (hm : [] ∉ w.mods) {s : St} (hs : MacOk s)
    (r : Str × Str → St) {fs : List (Str × Str)} (h : ∀ f ∈ fs, ∃ out, processFile w s f.1 f.2 = .ok (r f, out))
    (hpw : fs.Pairwise (Apart w s r)) : ∃ u, processFiles w s fs = .ok u ∧
      (∀ f ∈ fs, ∀ k n, FileDefines (r f) f.1 f.2 k n → dget (u.defs k) n = dget ((r f).defs k) n) ∧
      ∀ k n, (∀ f ∈ fs, ¬ FileDefines (r f) f.1 f.2 k n) → dget (u.defs k) n = dget (s.defs k) n :=
  files_apart hp hf hm hs r fs s hs h hpw fun _ _ => ⟨fun _ _ _ => rfl, fun _ _ _ => rfl⟩

theorem Spec.Apart.symm {w : Setup} {s : St} {r : Str × Str → St} {f g : Str × Str} (h : Apart w s r f g) : Apart w s r g f :=
  fun k n => ⟨fun hg => ⟨(h k n).2 hg, fun hf => ((h k n).1 hf).2 hg⟩, fun hf => ((h k n).1 hf).1⟩

/-- **C85.** Such files can be processed in any order. -/
theorem C85_order {w : Setup} (hp : PyWords w.py) (hf : [] ∉ w.cfg.extraTypes) (hm : [] ∉ w.mods) {s : St} (hs : MacOk s)
    (r : Str × Str → St) {fs fs' : List (Str × Str)} (h : ∀ f ∈ fs, ∃ out, processFile w s f.1 f.2 = .ok (r f, out))
    (hpw : fs.Pairwise (Apart w s r)) (hperm : fs'.Perm fs) : ∃ u u', processFiles w s fs = .ok u ∧
      processFiles w s fs' = .ok u' ∧ ∀ k n, dget (u.defs k) n = dget (u'.defs k) n := by
  obtain ⟨u, h1, h2, h3⟩ := C85_files hp hf hm hs r h hpw
  obtain ⟨u', h1', h2', h3'⟩ := C85_files hp hf hm hs r (fs := fs') (fun f hf => h f (hperm.mem_iff.1 hf))
    ((hperm.pairwise_iff fun h => h.symm).2 hpw)
  refine ⟨u, u', h1, h1', fun k n => ?_⟩
  by_cases hd : ∃ f ∈ fs, FileDefines (r f) f.1 f.2 k n
  · obtain ⟨f, hf, hk⟩ := hd
    rw [h2 f hf k n hk, h2' f (hperm.mem_iff.2 hf) k n hk]
  · have hd' : ∀ f ∈ fs, ¬ FileDefines (r f) f.1 f.2 k n := fun f hf hk => hd ⟨f, hf, hk⟩
    rw [h3 k n hd', h3' k n fun f hf => hd' f (hperm.mem_iff.1 hf)]

/-! ### A check -/

/-- All ends of a text. -/
def endsOf : Str → List Str
  | [] => [[]]
  | c :: s => (c :: s) :: endsOf s

theorem mem_endsOf (a b : Str) : b ∈ endsOf (a ++ b) := by
  induction a with
  | nil => cases b <;> simp [endsOf]
  | cons c a ih => simp [endsOf, ih]

/-- All ends of the words of a text. -/
def wordEnds (s : Str) : List Str := (endsOf s).map (·.takeWhile isWordC)

theorem mem_wordEnds {n a b : Str} (h1 : n.all isWordC = true) (h2 : ∀ c, b.head? = some c → isWordC c = false) :
    n ∈ wordEnds (a ++ (n ++ b)) := by
  refine List.mem_map.2 ⟨n ++ b, mem_endsOf _ _, ?_⟩
  exact (takeWhile_word h1 h2).1

theorem looksAt_mem {n s : Str} (h : LooksAt n s) : n ∈ wordEnds s := by
  obtain ⟨_, h1, a, b, rfl, _, h2⟩ := h
  exact mem_wordEnds h1 h2

theorem wordIn_mem {n s : Str} (h : WordIn n s) : n ∈ wordEnds s := by
  obtain ⟨_, h1, a, b, rfl, _, h2⟩ := h
  exact mem_wordEnds h1 h2

/-- Macros of these names. -/
def macs (ns : List Str) : List (Kind × Str) := ns.map (Kind.macros, ·) ++ ns.map (Kind.fnmacros, ·)

theorem mem_macs {k : Kind} {n : Str} {ns : List Str} (hk : isMac k) (h : n ∈ ns) : (k, n) ∈ macs ns := by
  rcases hk with rfl | rfl
  · exact List.mem_append_left _ (List.mem_map.2 ⟨n, h, rfl⟩)
  · exact List.mem_append_right _ (List.mem_map.2 ⟨n, h, rfl⟩)

/-- A list with all that a line asks for. -/
def lineReadsL (w : Setup) (st : PPState St) : Line → List (Kind × Str)
  | .code l | .pragma l => macs (wordEnds l)
  | .dif r | .delif r => macs (wordEnds r) ++ macs (wordEnds (substDefined (menvOf st.env) r))
  | .define _ r => macs (wordEnds r) ++ [(.fnmacros, (parseDefine (defText w st r)).2)] ++
      (wordEnds (evalText w.castGram (parseDefine (defText w st r)).2)).map (Kind.values, ·)
  | _ => []

theorem lineReads_mem {w : Setup} {st : PPState St} {l : Line} {k : Kind} {n : Str} (h : LineReads w st l k n) :
    (k, n) ∈ lineReadsL w st l := by
  cases l with
  | code l => exact mem_macs h.2.1 (looksAt_mem h.2.2)
  | pragma l => exact mem_macs h.2.1 (looksAt_mem h.2.2)
  | dif r =>
    obtain ⟨_, hk, h | h⟩ := h
    · exact List.mem_append_left _ (mem_macs hk (looksAt_mem h))
    · exact List.mem_append_right _ (mem_macs hk (looksAt_mem h))
  | delif r =>
    obtain ⟨_, _, hk, h | h⟩ := h
    · exact List.mem_append_left _ (mem_macs hk (looksAt_mem h))
    · exact List.mem_append_right _ (mem_macs hk (looksAt_mem h))
  | define x r =>
    obtain ⟨_, ⟨hk, h⟩ | ⟨rfl, rfl⟩ | ⟨rfl, h⟩⟩ := h
    · exact List.mem_append_left _ (List.mem_append_left _ (mem_macs hk (looksAt_mem h)))
    · exact List.mem_append_left _ (List.mem_append_right _ (by simp))
    · exact List.mem_append_right _ (List.mem_map.2 ⟨n, wordIn_mem h, rfl⟩)
  | delse => exact h.elim
  | dendif => exact h.elim
  | undef _ => exact h.elim
  | badName => exact h.elim
  | other => exact h.elim

/-- A list with all that lines ask for. -/
def linesReadsL (w : Setup) : Nat → PPState St → List Line → List (Kind × Str)
  | _, _, [] => []
  | i, st, l :: ls =>
    lineReadsL w st l ++ match ppStep w.sem i st l with
      | .ok (st', _) => linesReadsL w (i + 1) st' ls
      | .error _ => []

theorem linesReads_mem {w : Setup} {k : Kind} {n : Str} {l : Line} {b : List Line} {st' : PPState St} :
    ∀ (a : List Line) (i : Nat) (st : PPState St) {os : List Out}, ppRun w.sem i st a = .ok (st', os) →
      LineReads w st' l k n → (k, n) ∈ linesReadsL w i st (a ++ l :: b)
  | [], i, st, os, h, hl => by
    simp only [ppRun, Except.ok.injEq, Prod.mk.injEq] at h
    obtain ⟨rfl, _⟩ := h
    exact List.mem_append_left _ (lineReads_mem hl)
  | x :: a, i, st, os, h, hl => by
    simp only [ppRun] at h
    split at h
    · cases h
    · rename_i s1 o e1
      split at h
      · cases h
      · rename_i s2 os2 e2
        simp only [Except.ok.injEq, Prod.mk.injEq] at h
        obtain ⟨rfl, _⟩ := h
        refine List.mem_append_right _ ?_
        rw [e1]
        exact linesReads_mem a (i + 1) s1 e2 hl

/-- All positions of a text. -/
def posOf : Char → Str → List Pos
  | p, [] => [⟨p, []⟩]
  | p, c :: s => ⟨p, c :: s⟩ :: posOf c s

theorem mem_posOf : ∀ (a : Str) (p : Char) (r : Str), (⟨a.getLastD p, r⟩ : Pos) ∈ posOf p (a ++ r)
  | [], p, r => by cases r <;> simp [posOf]
  | c :: a, p, r => by
    simp only [List.cons_append, posOf, List.getLastD_cons]
    exact List.mem_cons_of_mem _ (mem_posOf a c r)

theorem within_mem {y : Pos} {text : Str} (h : Within y ⟨' ', text⟩) : y ∈ posOf ' ' text := by
  obtain ⟨a, h1, h2⟩ := h
  simp only at h1 h2
  obtain ⟨p, r⟩ := y
  simp only at h1 h2
  subst h2
  rw [h1]
  exact mem_posOf a ' ' r

/-- The expressions at a position. -/
def exprsAt (cfg : Cfg) (y : Pos) : List Str :=
  (if y.prev = '=' ∨ y.prev = '[' then ((exprP cfg y).map (·.1)).toList else []) ++
    if y.prev = '=' then (((lit '{' y).bind (delimited (exprP cfg))).map (·.1)).getD [] else []

theorem mem_exprsAt {cfg : Cfg} {y : Pos} {e : Str} (h : ExprAt cfg y e) : e ∈ exprsAt cfg y := by
  unfold exprsAt
  rcases h with ⟨h, z, h1⟩ | ⟨h, u, es, z, h1, h2, h3⟩
  · rw [if_pos h, h1]
    simp
  · rw [if_pos h (c := y.prev = '='), h1]
    refine List.mem_append_right _ ?_
    simpa [h2] using h3

/-- A list with the values that a text asks for. -/
def valReadsL (w : Setup) (text : Str) : List Str :=
  wordEnds (evalText w.castGram c%"-1") ++ (posOf ' ' text).flatMap fun y =>
    (exprsAt w.cfg y).flatMap fun e => wordEnds (evalText w.castGram e)

/-- A list with the tags that a text asks for. -/
def tagReadsL (w : Setup) (text : Str) : List Str :=
  (posOf ' ' text).flatMap fun y => tagWords.filterMap fun kw =>
    match keyword kw y with
    | some z => (identP w.cfg z).map (·.1)
    | none => none

/-- The text has no struct, union or enum without tag. -/
def noAnon (text : Str) : Bool :=
  (posOf ' ' text).all fun y => tagWords.all fun kw =>
    match keyword kw y with
    | some z => (delim '{' z).isNone
    | none => true

/-- A list with all that a text asks for. -/
def textReadsL (w : Setup) (text : Str) : List (Kind × Str) :=
  (valReadsL w text).map (Kind.values, ·) ++ ((tagReadsL w text).map (Kind.structs, ·) ++
    ((tagReadsL w text).map (Kind.unions, ·) ++ (tagReadsL w text).map (Kind.enums, ·)))

theorem textReads_mem {w : Setup} {text : Str} (hna : noAnon text = true) {k : Kind} {n : Str} (h : TextReads w text k n) :
    (k, n) ∈ textReadsL w text := by
  unfold textReadsL
  rcases h with ⟨rfl, h⟩ | ⟨hk, kw, hkw, y, z, h1, h2, h3⟩
  · refine List.mem_append_left _ (List.mem_map.2 ⟨n, ?_, rfl⟩)
    unfold valReadsL
    rcases h with ⟨y, e, h1, h2, h3⟩ | h
    · exact List.mem_append_right _ (List.mem_flatMap.2 ⟨y, within_mem h1, List.mem_flatMap.2 ⟨e, mem_exprsAt h2, wordIn_mem h3⟩⟩)
    · exact List.mem_append_left _ (wordIn_mem h)
  · have ht : n ∈ tagReadsL w text := by
      rcases h3 with ⟨v, h3⟩ | ⟨⟨v, h3⟩, _⟩
      · refine List.mem_flatMap.2 ⟨y, within_mem h1, List.mem_filterMap.2 ⟨kw, hkw, ?_⟩⟩
        rw [h2]
        simp only [h3, Option.map_some]
      · exfalso
        have := List.all_eq_true.1 (List.all_eq_true.1 hna y (within_mem h1)) kw hkw
        rw [h2] at this
        simp only [h3, Option.isNone_some, Bool.false_eq_true] at this
    refine List.mem_append_right _ ?_
    rcases hk with rfl | rfl | rfl
    · exact List.mem_append_left _ (List.mem_map.2 ⟨n, ht, rfl⟩)
    · exact List.mem_append_right _ (List.mem_append_left _ (List.mem_map.2 ⟨n, ht, rfl⟩))
    · exact List.mem_append_right _ (List.mem_append_right _ (List.mem_map.2 ⟨n, ht, rfl⟩))

/-- A list with all that a file asks for; nothing if the file has structs, unions or enums without tag. -/
def fileReadsL (w : Setup) (s : St) (path text : Str) : Option (List (Kind × Str)) :=
  match preprocess w.sem (setFile s (some path)) (removeComments text) with
  | .ok (_, out) =>
    if noAnon out then
      some (linesReadsL w 0 (PPState.init (setFile s (some path))) (ppLines text) ++ textReadsL w out)
    else none
  | .error _ => none

theorem fileReads_mem {w : Setup} {s : St} {path text : Str} {L : List (Kind × Str)} (hL : fileReadsL w s path text = some L)
    {k : Kind} {n : Str} (h : FileReads w s path text k n) : (k, n) ∈ L := by
  unfold fileReadsL at hL
  split at hL
  · rename_i st out e
    split at hL
    · rename_i hna
      cases hL
      rcases h with ⟨a, l, b, st', os, h1, h2, h3⟩ | ⟨st', out', h1, h2⟩
      · rw [h1]
        exact List.mem_append_left _ (linesReads_mem a 0 _ h2 h3)
      · rw [e] at h1
        simp only [Except.ok.injEq, Prod.mk.injEq] at h1
        obtain ⟨_, rfl⟩ := h1
        exact List.mem_append_right _ (textReads_mem hna h2)
    · cases hL
  · cases hL

/-- A list with all that a file defines. -/
def fileDefinesL (s' : St) (path text : Str) : List (Kind × Str) :=
  (match dget s'.fileDefs (some (basename path)) with
    | some e => dataList.flatMap fun k => (dkeys (e k)).map (k, ·)
    | none => []) ++ (ppLines text).filterMap fun l => match l with
      | .undef n => some (.macros, n)
      | _ => none

theorem fileDefines_mem {s' : St} {path text : Str} {k : Kind} {n : Str} (h : FileDefines s' path text k n) :
    (k, n) ∈ fileDefinesL s' path text := by
  unfold fileDefinesL
  rcases h with h | ⟨rfl, h⟩
  · refine List.mem_append_left _ ?_
    unfold recorded at h
    cases e : dget s'.fileDefs (some (basename path)) with
    | none => rw [e] at h; exact absurd rfl h
    | some f =>
      rw [e] at h
      simp only [Option.bind_some] at h
      refine List.mem_flatMap.2 ⟨k, by cases k <;> decide, List.mem_map.2 ⟨n, ?_, rfl⟩⟩
      by_cases hn : n ∈ dkeys (f k)
      · exact hn
      · exact absurd (dget_none_iff.2 hn) h
  · exact List.mem_append_right _ (List.mem_filterMap.2 ⟨_, h, rfl⟩)

/-- Two files have nothing to do with each other. -/
def apartB (w : Setup) (s : St) (f g : Str × Str) : Bool :=
  match processFile w s f.1 f.2, processFile w s g.1 g.2, fileReadsL w s f.1 f.2, fileReadsL w s g.1 g.2 with
  | .ok (sf, _), .ok (sg, _), some rf, some rg =>
    (fileDefinesL sf f.1 f.2).all (fun d => decide (d ∉ rg) && decide (d ∉ fileDefinesL sg g.1 g.2)) &&
      (fileDefinesL sg g.1 g.2).all fun d => decide (d ∉ rf)
  | _, _, _, _ => false

/-- The tables after a file alone. -/
def aloneOf (w : Setup) (s : St) (f : Str × Str) : St :=
  match processFile w s f.1 f.2 with
  | .ok (s', _) => s'
  | .error _ => s

theorem apartB_ok {w : Setup} {s : St} {f g : Str × Str} (h : apartB w s f g = true) : Apart w s (aloneOf w s) f g := by
  unfold apartB at h
  split at h
  · rename_i sf o1 sg o2 rf rg e1 e2 e3 e4
    simp only [Bool.and_eq_true, List.all_eq_true, decide_eq_true_eq] at h
    obtain ⟨h1, h2⟩ := h
    have ef : aloneOf w s f = sf := by simp only [aloneOf, e1]
    have eg : aloneOf w s g = sg := by simp only [aloneOf, e2]
    intro k n
    rw [ef, eg]
    refine ⟨fun hd => ⟨fun hr => ?_, fun hd' => ?_⟩, fun hd hr => ?_⟩
    · exact (h1 _ (fileDefines_mem hd)).1 (fileReads_mem e4 hr)
    · exact (h1 _ (fileDefines_mem hd)).2 (fileDefines_mem hd')
    · exact h2 _ (fileDefines_mem hd) (fileReads_mem e3 hr)
  · cases h

/-! ### Examples -/

/-- Three headers that share words, but no definitions. -/
def exHeaders : List (Str × Str) :=
  [(c%"a.h", c%"#ifndef A_H\n#define A_H\n#define A_SIZE 4\n#endif\nstruct pt { int x; int y[A_SIZE]; };\nint area(struct pt *p);"),
   (c%"b.h", c%"#define B_MAX 10\nenum color { RED, GREEN = B_MAX };\ntypedef int num;\nint paint(num c, int x);\n#undef B_MAX"),
   (c%"c.h", c%"#define SQR(x) x*x\nextern int table[SQR(3)]; @ int int x;")]

theorem exHeaders_apart : exHeaders.Pairwise (Apart exSetup Store.empty (aloneOf exSetup Store.empty)) := by
  have h : (apartB exSetup Store.empty (exHeaders[0]) (exHeaders[1]) && apartB exSetup Store.empty (exHeaders[0]) (exHeaders[2]) &&
    apartB exSetup Store.empty (exHeaders[1]) (exHeaders[2])) = true := by decide +kernel
  simp only [Bool.and_eq_true] at h
  refine .cons (fun f hf => ?_) (.cons (fun f hf => ?_) (.cons (fun f hf => (nomatch hf)) .nil))
  · rcases List.mem_cons.1 hf with rfl | hf
    · exact apartB_ok h.1.1
    · rw [List.mem_singleton.1 hf]
      exact apartB_ok h.1.2
  · rw [List.mem_singleton.1 hf]
    exact apartB_ok h.2

theorem aloneOf_ok {w : Setup} {s : St} {f : Str × Str} (h : (match processFile w s f.1 f.2 with
    | .ok _ => true
    | .error _ => false) = true) : ∃ out, processFile w s f.1 f.2 = .ok (aloneOf w s f, out) := by
  unfold aloneOf
  split at h
  · rename_i p e
    rw [e]
    exact ⟨p.2, rfl⟩
  · cases h

theorem exSetup_words : PyWords exSetup.py := fun _ _ _ _ => rfl

theorem empty_macOk : MacOk (Store.empty : St) := ⟨fun _ h => (nomatch h), fun _ h => (nomatch h)⟩

/-- C85 on these headers, in any order. -/
theorem C85_example (fs : List (Str × Str)) (h : fs.Perm exHeaders) : ∃ u u', processFiles exSetup Store.empty exHeaders = .ok u ∧
    processFiles exSetup Store.empty fs = .ok u' ∧ ∀ k n, dget (u.defs k) n = dget (u'.defs k) n := by
  refine C85_order exSetup_words (by decide) (by decide) empty_macOk (aloneOf exSetup Store.empty) (fun f hf => aloneOf_ok ?_)
    exHeaders_apart h
  have : ∀ f ∈ exHeaders, (match processFile exSetup Store.empty f.1 f.2 with
    | .ok _ => true
    | .error _ => false) = true := by decide +kernel
  exact this f hf

theorem files_check {fs : List (Str × Str)} {p : St → Bool} (h : (match processFiles exSetup Store.empty fs with
    | .ok u => p u
    | .error _ => false) = true) : ∃ u, processFiles exSetup Store.empty fs = .ok u ∧ p u = true := by
  split at h
  · rename_i u e
    exact ⟨u, e, h⟩
  · cases h

/-- A macro that is no word of another header can still change what it means: after a string literal `expand_macros` goes on
with the last character of the line. -/
theorem C85_counterexample_literal :
    (∃ u, processFiles exSetup Store.empty [(c%"b.h", c%"extern \"C\" int start\n(int x);"), (c%"a.h", c%"#define t 5")] = .ok u ∧
      ((dget (u.defs .functions) c%"start").isSome && (dget (u.defs .functions) c%"star5").isNone) = true) ∧
    (∃ u, processFiles exSetup Store.empty [(c%"a.h", c%"#define t 5"), (c%"b.h", c%"extern \"C\" int start\n(int x);")] = .ok u ∧
      ((dget (u.defs .functions) c%"start").isNone && (dget (u.defs .functions) c%"star5").isSome) = true) :=
  ⟨files_check (by decide +kernel), files_check (by decide +kernel)⟩

end Pyclib
