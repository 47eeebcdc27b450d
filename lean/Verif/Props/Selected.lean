import Verif.Spec.Chosen
import Verif.Props.Dead
/-! Theorems about headers that select the same lines (C99). -/
namespace Pyclib
open Spec

/-! ### The selected lines determine the macros -/

section
variable {E : Type} {sem : CSem E}

/-- Lines without conditionals. -/
def runLines (sem : CSem E) (env : E) : List Line → E × List (E × Line)
  | [] => (env, [])
  | l :: ls => ((runLines sem (lineEnv sem.toPPSem env l) ls).1, (env, l) :: (runLines sem (lineEnv sem.toPPSem env l) ls).2)

theorem runLines_append : ∀ (a b : List Line) (env : E),
    runLines sem env (a ++ b) = ((runLines sem (runLines sem env a).1 b).1, (runLines sem env a).2 ++ (runLines sem (runLines sem env a).1 b).2)
  | [], b, env => rfl
  | l :: a, b, env => by simp only [List.cons_append, runLines, runLines_append a b]

mutual
theorem sblock_lineRun : ∀ (b : SBlock) (env : E), b.run sem env = runLines sem env ((b.run sem env).2.map (·.2))
  | .nil, env => rfl
  | .leaf t l rest, env => by
    have := sblock_lineRun rest (lineEnv sem.toPPSem env l)
    simp only [SBlock.run, List.map_cons, runLines]
    rw [← this]
  | .cond t c body chain rest, env => by
    have h1 := sblock_lineRun body env
    have h2 := schain_lineRun chain env
    simp only [SBlock.run, List.map_append, runLines_append]
    split
    · rw [← h1, ← sblock_lineRun rest]
    · rw [← h2, ← sblock_lineRun rest]
theorem schain_lineRun : ∀ (c : SChain) (env : E), c.run sem env = runLines sem env ((c.run sem env).2.map (·.2))
  | .endif t, env => rfl
  | .els t body t', env => sblock_lineRun body env
  | .elif t e body tail, env => by
    simp only [SChain.run]
    split
    · exact sblock_lineRun body env
    · exact schain_lineRun tail env
end
end

/-! ### Texts with the same lines, apart from empty ones -/

theorem codes_split : ∀ {os : List Out} {t : Str} {ts : List Str}, codes os = t :: ts →
    ∃ a os', nlText os = a ++ '\n' :: (t ++ nlText os') ∧ a.all isWhite = true ∧ codes os' = ts
  | [], _, _, h => by simp [codes] at h
  | .blank :: os, t, ts, h => by
    obtain ⟨a, os', h1, h2, h3⟩ := codes_split (os := os) (t := t) (ts := ts) (by simpa [codes] using h)
    refine ⟨'\n' :: a, os', ?_, ?_, h3⟩
    · simp only [nlText, List.flatMap_cons, Out.text] at h1 ⊢
      rw [h1]; rfl
    · simpa using ⟨rfl, by simpa using h2⟩
  | .code x :: os, t, ts, h => by
    have : x = t ∧ codes os = ts := by simpa [codes] using h
    obtain ⟨rfl, hc⟩ := this
    exact ⟨[], os, by simp [nlText, Out.text], rfl, hc⟩

theorem follows_codes : ∀ (ts : List Str) {os os' : List Out}, codes os = ts → codes os' = ts →
    (∀ t ∈ ts, Starts t ∧ t.getLast? ≠ some '\\') → Follows (nlText os) (nlText os')
  | [], os, os', h, h', _ => by
    have := follows_blank follows_nil (codes_white h) (codes_white h') (by simpa using nlText_eol os) (by simpa using nlText_eol os')
    simpa using this
  | t :: ts, os, os', h, h', hs => by
    obtain ⟨a, r, h1, h2, h3⟩ := codes_split h
    obtain ⟨a', r', h1', h2', h3'⟩ := codes_split h'
    have ih := follows_codes ts h3 h3' (fun t ht => hs t (by simp [ht]))
    obtain ⟨s1, s2⟩ := hs t (by simp)
    have e := nlText_eol os
    have e' := nlText_eol os'
    rw [h1] at e ⊢
    rw [h1'] at e' ⊢
    exact follows_blank (follows_text ⟨respaced_refl _ _ _ _ (Nat.lt_succ_self _), s1, s2, s2⟩ ih) h2 h2' e e'

/-! ### The run -/

/-- Without pragmas among the selected lines nothing is raised and no packing changes. -/
theorem trRun_quiet {E : Type} (sem : PPSem E) : ∀ (es : List (Entry E)), SelPlain es → (∀ env r, Entry.sel env (.pragma r) ∉ es) →
    ∀ (i : Nat) (s : PPState E), Live s → ∃ s' os, trRun sem i s es = .ok (s', os) ∧ s'.packList = s.packList
  | [], _, _, i, s, _ => ⟨s, [], rfl, rfl⟩
  | e :: es, hp, hpr, i, s, hl => by
    have hp' : SelPlain es := fun e he => hp e (by simp [he])
    have hpr' : ∀ env r, Entry.sel env (.pragma r) ∉ es := fun env r he => hpr env r (by simp [he])
    have key : ∃ s1 o, trStep sem i s e = .ok (s1, o) ∧ s1.packList = s.packList ∧ Live s1 := by
      cases e with
      | cond => exact ⟨s, _, rfl, rfl, hl⟩
      | skip l => exact ⟨s, _, rfl, rfl, hl⟩
      | sel env l =>
        obtain ⟨ts, ht, _⟩ := live_true hl
        have hpl := hp _ (by simp) env l rfl
        cases l with
        | pragma r => exact absurd (by simp) (hpr env r)
        | dif r => exact hpl.elim
        | delif r => exact hpl.elim
        | delse => exact hpl.elim
        | dendif => exact hpl.elim
        | badName => exact hpl.elim
        | code t => exact ⟨s, some (.code (sem.expand s.env t)), by simp only [trStep, ppStep, ht], rfl, hl⟩
        | define n r =>
          exact ⟨{ s with env := sem.define s.env n (if ts.all id = true then sem.expand s.env r else r) }, some .blank,
            by simp only [trStep, ppStep, ht], rfl, hl⟩
        | undef n => exact ⟨{ s with env := sem.undef s.env n }, some .blank, by simp only [trStep, ppStep, ht], rfl, hl⟩
        | other => exact ⟨_, _, rfl, rfl, hl⟩
    obtain ⟨s1, o, k1, k2, k3⟩ := key
    obtain ⟨s', os, k4, k5⟩ := trRun_quiet sem es hp' hpr' (i + 1) s1 k3
    refine ⟨s', o.toList ++ os, ?_, k5.trans k2⟩
    simp only [trRun, k1, andThen_ok, k4]

mutual
theorem sel_trace {E : Type} {sem : CSem E} : ∀ (b : SBlock) (env env' : E) (l : Line), Entry.sel env' l ∈ b.trace sem env → (env', l) ∈ (b.run sem env).2
  | .nil, env, env', l, h => by simp [SBlock.trace] at h
  | .leaf t l0 rest, env, env', l, h => by
    simp only [SBlock.trace, List.mem_cons, Entry.sel.injEq] at h
    simp only [SBlock.run, List.mem_cons, Prod.mk.injEq]
    exact h.imp id (sel_trace rest _ _ _)
  | .cond t c body chain rest, env, env', l, h => by
    simp only [SBlock.trace, List.mem_cons, reduceCtorEq, false_or] at h
    simp only [SBlock.run, List.mem_append]
    split at h
    · rename_i hc
      simp only [List.mem_append] at h
      rw [if_pos hc]
      rcases h with h | h | h
      · exact .inl (sel_trace body _ _ _ h)
      · exact (sel_cskips chain _ _ h).elim
      · exact .inr (sel_trace rest _ _ _ h)
    · rename_i hc
      simp only [List.mem_append] at h
      rw [if_neg hc]
      rcases h with h | h | h
      · exact (sel_skips body _ _ h).elim
      · exact .inl (sel_ctrace chain _ _ _ h)
      · exact .inr (sel_trace rest _ _ _ h)
theorem sel_ctrace {E : Type} {sem : CSem E} : ∀ (c : SChain) (env env' : E) (l : Line), Entry.sel env' l ∈ c.trace sem env → (env', l) ∈ (c.run sem env).2
  | .endif t, env, env', l, h => by simp [SChain.trace] at h
  | .els t body t', env, env', l, h => by
    simp only [SChain.trace, List.mem_cons, List.mem_append, reduceCtorEq, false_or, List.not_mem_nil, or_false] at h
    exact sel_trace body _ _ _ h
  | .elif t e body tail, env, env', l, h => by
    simp only [SChain.trace, List.mem_cons, reduceCtorEq, false_or] at h
    simp only [SChain.run]
    split at h
    · rename_i hc
      rw [if_pos hc]
      rcases List.mem_append.1 h with h | h
      · exact sel_trace body _ _ _ h
      · exact (sel_cskips tail _ _ h).elim
    · rename_i hc
      rw [if_neg hc]
      rcases List.mem_append.1 h with h | h
      · exact (sel_skips body _ _ h).elim
      · exact sel_ctrace tail _ _ _ h
theorem sel_skips {E : Type} : ∀ (b : SBlock) (env' : E) (l : Line), Entry.sel env' l ∉ b.skips E
  | .nil, env', l => by simp [SBlock.skips]
  | .leaf t l0 rest, env', l => by
    have := sel_skips rest env' l
    simpa [SBlock.skips] using this
  | .cond t c body chain rest, env', l => by
    have h1 := sel_skips body env' l
    have h2 := sel_cskips chain env' l
    have h3 := sel_skips rest env' l
    simp [SBlock.skips, h1, h2, h3]
theorem sel_cskips {E : Type} : ∀ (c : SChain) (env' : E) (l : Line), Entry.sel env' l ∉ c.skips E
  | .endif t, env', l => by simp [SChain.skips]
  | .els t body t', env', l => by
    have h1 := sel_skips body env' l
    simp [SChain.skips, h1]
  | .elif t e body tail, env', l => by
    have h1 := sel_skips body env' l
    have h2 := sel_cskips tail env' l
    simp [SChain.skips, h1, h2]
end

/-- What `preprocess` makes of well nested lines. -/
theorem select_run (w : Setup) {s : St} (ht : TablesOk s) {b : SBlock} (hb : b.Ok) (hpr : ∀ x ∈ (b.run (fileSem w) s).2, ∀ r, x.2 ≠ .pragma r) :
    ∃ st os, ppRun w.sem 0 (PPState.init s) (b.texts.map classify) = .ok (st, os) ∧ st.env = (b.run (fileSem w) s).1 ∧
      st.packList = [(0, none)] ∧ codes os = traceText w.sem (b.run (fileSem w) s).2 := by
  have hc := fun env t c => file_cond w env t c
  have hl := fun env t l => file_line w env t l
  obtain ⟨hlines, hok⟩ := sblock_lines b hb
  have htr : b.trace (fileSem w) s = b.tree.trace w.sem s := sblock_trace (P := TablesOk) hc hl b hb s ht
  have hrun : b.tree.run w.sem s = b.run (fileSem w) s := (sblock_run (P := TablesOk) hc hl b hb s ht).1
  have hmach := block_tr (i := 0) (s := PPState.init s) w.sem b.tree hok rfl (by simp [PPState.init])
  obtain ⟨st, os, h1, h2⟩ := trRun_quiet w.sem (b.tree.trace w.sem s) (block_plain w.sem b.tree hok s) (by
    intro env r hm
    rw [← htr] at hm
    exact hpr _ (sel_trace b _ _ _ hm) r rfl) 0 (PPState.init s) ⟨rfl, by simp [PPState.init]⟩
  have h3 : ppRun w.sem 0 (PPState.init s) b.tree.lines = .ok (st, os) := hmach.trans h1
  obtain ⟨e1, _, _, e4⟩ := block_live b.tree hok (by simp [PPState.init]) h3
  refine ⟨st, os, by rw [hlines]; exact h3, ?_, h2, ?_⟩
  · rw [e1]; exact congrArg Prod.fst hrun
  · rw [e4]; exact congrArg (fun x => traceText w.sem x.2) hrun

/-- C99: headers whose conditionals select the same lines lead to the same tables or to the same exception: nothing else in them matters,
neither the conditionals themselves nor what they leave out. -/
theorem C99_selected_partial (w : Setup) (hg : gramOk w.castGram = true)
    (hj : ∀ t t', Respaced (fun _ => none) (fun _ => none) .free ';' t t' → w.junk t = w.junk t') {s : St} (ht : TablesOk s)
    {path text text' : Str} {b b' : SBlock} (hb : b.Ok) (hb' : b'.Ok) (h : IsSource text b.texts) (h' : IsSource text' b'.texts)
    (hsel : (b.run (fileSem w) (setFile s (some path))).2.map (·.2) = (b'.run (fileSem w) (setFile s (some path))).2.map (·.2))
    (hpr : ∀ x ∈ (b.run (fileSem w) (setFile s (some path))).2, ∀ r, x.2 ≠ .pragma r)
    (hloose : ∀ x ∈ (b.run (fileSem w) (setFile s (some path))).2, ∀ t, x.2 = .code t →
      Starts (w.sem.expand x.1 t) ∧ (w.sem.expand x.1 t).getLast? ≠ some '\\') :
    resultOf w s path text = resultOf w s path text' := by
  have hrun : b'.run (fileSem w) (setFile s (some path)) = b.run (fileSem w) (setFile s (some path)) := by
    rw [sblock_lineRun b', ← hsel, ← sblock_lineRun b]
  have ht0 := tablesOk_setFile ht (some path)
  obtain ⟨st, os, r1, r2, r3, r4⟩ := select_run w ht0 hb hpr
  obtain ⟨st', os', r1', r2', r3', r4'⟩ := select_run w ht0 hb' (by rw [hrun]; exact hpr)
  rw [hrun] at r2' r4'
  have hF : Follows (nlText os) (nlText os') := by
    refine follows_codes _ r4 r4' (fun t hm => ?_)
    simp only [traceText, List.mem_flatMap] at hm
    obtain ⟨x, hx, hm⟩ := hm
    obtain ⟨e, l⟩ := x
    cases l with
    | code t0 =>
      simp only [lineText, List.mem_singleton] at hm
      subst hm
      exact hloose _ hx t0 rfl
    | _ => simp [lineText] at hm
  unfold resultOf processFile
  rw [preprocess_out, preprocess_out, source_lines h, source_lines h', r1, r1']
  simp only [outOf, r3, r3', gram_none, r2, r2']
  rw [C59_blanks_partial (c := none) (g := ⟨w.cfg, w.mods, w.ev, fun _ => none, w.junk⟩) hg rfl _ hj (resp_out hF)]
  split <;> rfl

/-! ### Resolving the conditionals by hand -/

section
variable {E : Type} {sem : CSem E}

mutual
theorem chosen_lines : ∀ (b : SBlock) (env : E), (b.chosen sem env).map (·.2) = (b.run sem env).2.map (·.2)
  | .nil, env => rfl
  | .leaf t l rest, env => by simp only [SBlock.chosen, SBlock.run, List.map_cons, chosen_lines rest]
  | .cond t c body chain rest, env => by
    simp only [SBlock.chosen, SBlock.run]
    split
    · simp only [List.map_append, chosen_lines body, chosen_lines rest]
    · simp only [List.map_append, chosen_clines chain, chosen_lines rest]
theorem chosen_clines : ∀ (c : SChain) (env : E), (c.chosen sem env).map (·.2) = (c.run sem env).2.map (·.2)
  | .endif t, env => rfl
  | .els t body t', env => chosen_lines body env
  | .elif t e body tail, env => by
    simp only [SChain.chosen, SChain.run]
    split
    · exact chosen_lines body env
    · exact chosen_clines tail env
end

mutual
theorem chosen_ok : ∀ (b : SBlock) (env : E), b.Ok → ∀ x ∈ b.chosen sem env, IsLeaf x.1 x.2
  | .nil, env, _, x, hx => by simp [SBlock.chosen] at hx
  | .leaf t l rest, env, h, x, hx => by
    rcases List.mem_cons.1 hx with rfl | hx
    · exact h.1
    · exact chosen_ok rest _ h.2 x hx
  | .cond t c body chain rest, env, h, x, hx => by
    obtain ⟨_, h1, h2, h3⟩ := h
    simp only [SBlock.chosen] at hx
    split at hx
    · rcases List.mem_append.1 hx with hx | hx
      · exact chosen_ok body _ h1 x hx
      · exact chosen_ok rest _ h3 x hx
    · rcases List.mem_append.1 hx with hx | hx
      · exact chosen_cok chain _ h2 x hx
      · exact chosen_ok rest _ h3 x hx
theorem chosen_cok : ∀ (c : SChain) (env : E), c.Ok → ∀ x ∈ c.chosen sem env, IsLeaf x.1 x.2
  | .endif t, env, _, x, hx => by simp [SChain.chosen] at hx
  | .els t body t', env, h, x, hx => chosen_ok body env h.2.1 x hx
  | .elif t e body tail, env, h, x, hx => by
    simp only [SChain.chosen] at hx
    split at hx
    · exact chosen_ok body env h.2.1 x hx
    · exact chosen_cok tail env h.2.2 x hx
end

theorem flat_run : ∀ (ls : List (Str × Line)) (env : E), (SBlock.flat ls).run sem env = runLines sem env (ls.map (·.2))
  | [], env => rfl
  | (t, l) :: ls, env => by simp only [SBlock.flat, SBlock.run, List.map_cons, runLines, flat_run ls]
end

theorem flat_texts : ∀ (ls : List (Str × Line)), (SBlock.flat ls).texts = ls.map (·.1)
  | [] => rfl
  | (t, l) :: ls => by simp only [SBlock.flat, SBlock.texts, List.map_cons, flat_texts ls]

theorem flat_ok : ∀ (ls : List (Str × Line)), (∀ x ∈ ls, IsLeaf x.1 x.2) → (SBlock.flat ls).Ok
  | [], _ => trivial
  | (t, l) :: ls, h => ⟨h (t, l) (by simp), flat_ok ls (fun x hx => h x (by simp [hx]))⟩

/-- C99: leaving out the directives of the conditionals and the lines not chosen, and keeping the chosen lines as they stand, changes nothing. -/
theorem C99_resolved_partial (w : Setup) (hg : gramOk w.castGram = true)
    (hj : ∀ t t', Respaced (fun _ => none) (fun _ => none) .free ';' t t' → w.junk t = w.junk t') {s : St} (ht : TablesOk s)
    {path text text' : Str} {b : SBlock} (hb : b.Ok) (h : IsSource text b.texts)
    (h' : IsSource text' ((b.chosen (fileSem w) (setFile s (some path))).map (·.1)))
    (hpr : ∀ x ∈ (b.run (fileSem w) (setFile s (some path))).2, ∀ r, x.2 ≠ .pragma r)
    (hloose : ∀ x ∈ (b.run (fileSem w) (setFile s (some path))).2, ∀ t, x.2 = .code t →
      Starts (w.sem.expand x.1 t) ∧ (w.sem.expand x.1 t).getLast? ≠ some '\\') :
    resultOf w s path text = resultOf w s path text' := by
  refine C99_selected_partial w hg hj ht hb (flat_ok _ (chosen_ok b (setFile s (some path)) hb)) h (by rw [flat_texts]; exact h') ?_ hpr hloose
  rw [flat_run, chosen_lines, ← sblock_lineRun]

/-! ### Example -/

/-- A header with nested conditionals. -/
def ifBlock : SBlock :=
  .leaf c%"#define N 4" (.define c%"N" c%" 4")
    (.cond c%"#ifdef N" (.ifdef c%"N")
      (.leaf c%"struct T {" (.code c%"struct T {")
        (.cond c%"#if 0" (.expr c%" 0") (.leaf c%"long q;" (.code c%"long q;") .nil)
          (.els c%"#else" (.leaf c%"int z; };" (.code c%"int z; };") .nil) c%"#endif") .nil))
      (.els c%"#else" (.leaf c%"#define M 5" (.define c%"M" c%" 5") .nil) c%"#endif")
      (.leaf c%"struct T a[N];" (.code c%"struct T a[N];") .nil))

def ifText : Str := c%"#define N 4\n#ifdef N\nstruct T {\n#if 0\nlong q;\n#else\nint z; };\n#endif\n#else\n#define M 5\n#endif\nstruct T a[N];"
/-- The same without conditionals. -/
def noIfText : Str := c%"#define N 4\nstruct T {\nint z; };\nstruct T a[N];"

theorem ifBlock_ok : ifBlock.Ok := by
  have b0 : Blank [] := by simp [Blank]
  have b1 : Blank [' '] := by simp [Blank]
  exact ⟨.define _ c%" N 4" _ _ ⟨[], [], b0, b0, rfl, by simp <;> decide⟩ ⟨[' '], by simp, b1, ⟨'N', [], rfl, by decide, by simp⟩, rfl, by simp <;> decide⟩,
    .ifdef _ c%" N" c%"N" [] ⟨[], [], b0, b0, rfl, by simp <;> decide⟩ ⟨[' '], by simp, b1, ⟨'N', [], rfl, by decide, by simp⟩, rfl, by simp⟩ b0,
    ⟨code_leaf (by decide), .expr _ _ ⟨[], [], b0, b0, rfl, by simp <;> decide⟩, ⟨code_leaf (by decide), trivial⟩,
      ⟨⟨[], [], [], b0, b0, rfl, by simp⟩, ⟨code_leaf (by decide), trivial⟩, [], [], [], b0, b0, rfl, by simp⟩, trivial⟩,
    ⟨⟨[], [], [], b0, b0, rfl, by simp⟩,
      ⟨.define _ c%" M 5" _ _ ⟨[], [], b0, b0, rfl, by simp <;> decide⟩ ⟨[' '], by simp, b1, ⟨'M', [], rfl, by decide, by simp⟩, rfl, by simp <;> decide⟩, trivial⟩,
      [], [], [], b0, b0, rfl, by simp⟩,
    code_leaf (by decide), trivial⟩

/-- The conditions on the selected lines, computed. -/
def selectedB (w : Setup) (x : St × Line) : Bool :=
  match x.2 with
  | .code t => startsB (w.sem.expand x.1 t) && (w.sem.expand x.1 t).getLast? != some '\\'
  | .pragma _ => false
  | _ => true

theorem selected_check {w : Setup} {ls : List (St × Line)} (h : ls.all (selectedB w) = true) :
    (∀ x ∈ ls, ∀ r, x.2 ≠ .pragma r) ∧
    ∀ x ∈ ls, ∀ t, x.2 = .code t → Starts (w.sem.expand x.1 t) ∧ (w.sem.expand x.1 t).getLast? ≠ some '\\' := by
  rw [List.all_eq_true] at h
  refine ⟨fun x hx r e => ?_, fun x hx t e => ?_⟩
  · have := h x hx
    rw [selectedB, e] at this
    exact absurd this (by simp)
  · have := h x hx
    rw [selectedB, e] at this
    simp only [Bool.and_eq_true, bne_iff_ne] at this
    exact ⟨starts_check this.1, this.2⟩

theorem C99_example :
    IsSource ifText ifBlock.texts ∧
    resultOf exSetup Store.empty c%"t.h" ifText = resultOf exSetup Store.empty c%"t.h" noIfText ∧
    (fileGet ifText .variables c%"a").map Option.isSome = some true ∧ (fileGet ifText .structs c%"T").map Option.isSome = some true := by
  have hA : IsSource ifText ifBlock.texts :=
    plain_source (by decide) (by decide) (by decide) (by decide) (by decide) rfl (by decide) (by decide)
  have hc : (ifBlock.chosen (fileSem exSetup) (setFile Store.empty (some c%"t.h"))).map (·.1) =
      [c%"#define N 4", c%"struct T {", c%"int z; };", c%"struct T a[N];"] := by decide +kernel
  have hB : IsSource noIfText ((ifBlock.chosen (fileSem exSetup) (setFile Store.empty (some c%"t.h"))).map (·.1)) := by
    rw [hc]
    exact plain_source (by decide) (by decide) (by decide) (by decide) (by decide) rfl (by decide) (by decide)
  have hk := selected_check (w := exSetup) (ls := (ifBlock.run (fileSem exSetup) (setFile Store.empty (some c%"t.h"))).2) (by decide +kernel)
  exact ⟨hA, C99_resolved_partial exSetup (by decide) (fun _ _ _ => rfl) tablesOk_empty ifBlock_ok hA hB hk.1 hk.2, by decide +kernel, by decide +kernel⟩

/-- C99 fails with pragmas among the chosen lines: what is left out may move the lines where packings begin. -/
theorem C99_counterexample_pack :
    filePack c%"#if 0\n#define A 1\n#define B 2\n#define C 3\n#define D 4\n#define E 5\n#endif\nint j;\n#pragma pack(1)\nstruct S { char c; int x; };\n\n#pragma pack()" c%"S" = some none ∧
    filePack c%"int j;\n#pragma pack(1)\nstruct S { char c; int x; };\n\n#pragma pack()" c%"S" = some (some 1) :=
  ⟨by decide +kernel, by decide +kernel⟩

end Pyclib
