import Verif.Proof.SelectedPack
import Verif.Props.DeadPack
import Verif.Props.Alike
/-! Theorems about headers with pragmas that select the same lines (C99, C100). -/
namespace Pyclib
open Spec

theorem selLines_append {E : Type} : ∀ (a b : List (Entry E)), selLines (a ++ b) = selLines a ++ selLines b
  | [], b => rfl
  | .cond :: a, b => selLines_append a b
  | .skip l :: a, b => selLines_append a b
  | .sel e l :: a, b => by simp only [List.cons_append, selLines, selLines_append a b]

mutual
theorem selLines_skips {E : Type} : ∀ (b : SBlock), selLines (b.skips E) = []
  | .nil => rfl
  | .leaf t l rest => by simp only [SBlock.skips, selLines, selLines_skips rest]
  | .cond t c body chain rest => by
    simp only [SBlock.skips, selLines, selLines_append, selLines_skips body, selLines_cskips chain, selLines_skips rest, List.append_nil]
theorem selLines_cskips {E : Type} : ∀ (c : SChain), selLines (c.skips E) = []
  | .endif t => rfl
  | .els t body t' => by simp only [SChain.skips, selLines, selLines_append, selLines_skips body, List.append_nil]
  | .elif t e body tail => by
    simp only [SChain.skips, selLines, selLines_append, selLines_skips body, selLines_cskips tail, List.append_nil]
end

mutual
theorem trace_length {E : Type} {sem : CSem E} : ∀ (b : SBlock) (env : E), (b.trace sem env).length = b.texts.length
  | .nil, env => rfl
  | .leaf t l rest, env => by simp only [SBlock.trace, SBlock.texts, List.length_cons, trace_length rest]
  | .cond t c body chain rest, env => by
    simp only [SBlock.trace, SBlock.texts, List.length_cons]
    split <;> simp only [List.length_append, trace_length body, trace_length rest, ctrace_length chain, skips_length body, cskips_length chain]
theorem ctrace_length {E : Type} {sem : CSem E} : ∀ (c : SChain) (env : E), (c.trace sem env).length = c.texts.length
  | .endif t, env => rfl
  | .els t body t', env => by simp only [SChain.trace, SChain.texts, List.length_cons, List.length_append, trace_length body, List.length_nil]
  | .elif t e body tail, env => by
    simp only [SChain.trace, SChain.texts, List.length_cons]
    split <;> simp only [List.length_append, trace_length body, ctrace_length tail, skips_length body, cskips_length tail]
theorem skips_length {E : Type} : ∀ (b : SBlock), (b.skips E).length = b.texts.length
  | .nil => rfl
  | .leaf t l rest => by simp only [SBlock.skips, SBlock.texts, List.length_cons, skips_length rest]
  | .cond t c body chain rest => by
    simp only [SBlock.skips, SBlock.texts, List.length_cons, List.length_append, skips_length body, cskips_length chain, skips_length rest]
theorem cskips_length {E : Type} : ∀ (c : SChain), (c.skips E).length = c.texts.length
  | .endif t => rfl
  | .els t body t' => by simp only [SChain.skips, SChain.texts, List.length_cons, List.length_append, skips_length body, List.length_nil]
  | .elif t e body tail => by
    simp only [SChain.skips, SChain.texts, List.length_cons, List.length_append, skips_length body, cskips_length tail]
end

theorem apart_entries {E : Type} {sem : PPSem E} : ∀ {es : List (Entry E)}, PragmaApart sem es → ApartE sem es
  | [], _ => trivial
  | .cond :: es, h => apart_entries (es := es) (fun a e t e' r b he => h (.cond :: a) e t e' r b (by rw [he]; rfl))
  | .skip l :: es, h => apart_entries (es := es) (fun a e t e' r b he => h (.skip l :: a) e t e' r b (by rw [he]; rfl))
  | .sel env l :: es, h => by
    have ih := apart_entries (es := es) (fun a e t e' r b he => h (.sel env l :: a) e t e' r b (by rw [he]; rfl))
    cases l with
    | code t =>
      refine ⟨fun hp env' => ?_, ih⟩
      unfold HeadPragma at hp
      split at hp
      · exact h [] env t _ _ _ rfl env'
      · exact hp.elim
    | _ => exact ih

mutual
theorem selLines_trace {E : Type} {sem : CSem E} : ∀ (b : SBlock) (env : E), selLines (b.trace sem env) = (b.run sem env).2.map (·.2)
  | .nil, env => rfl
  | .leaf t l rest, env => by simp only [SBlock.trace, SBlock.run, selLines, List.map_cons, selLines_trace rest]
  | .cond t c body chain rest, env => by
    simp only [SBlock.trace, SBlock.run, selLines]
    split
    · simp only [selLines_append, List.map_append, selLines_trace body, selLines_cskips chain, selLines_trace rest, List.nil_append]
    · simp only [selLines_append, List.map_append, selLines_skips body, selLines_ctrace chain, selLines_trace rest, List.nil_append]
theorem selLines_ctrace {E : Type} {sem : CSem E} : ∀ (c : SChain) (env : E), selLines (c.trace sem env) = (c.run sem env).2.map (·.2)
  | .endif t, env => rfl
  | .els t body t', env => by
    simp only [SChain.trace, SChain.run, selLines, selLines_append, selLines_trace body, List.append_nil]
  | .elif t e body tail, env => by
    simp only [SChain.trace, SChain.run, selLines]
    split
    · simp only [selLines_append, selLines_trace body, selLines_cskips tail, List.append_nil]
    · simp only [selLines_append, selLines_skips body, selLines_ctrace tail, List.nil_append]
end

theorem flat_trace {E : Type} {sem : CSem E} : ∀ (ls : List (Str × Line)) (env : E),
    (SBlock.flat ls).trace sem env = ((SBlock.flat ls).run sem env).2.map fun x => .sel x.1 x.2
  | [], env => rfl
  | (t, l) :: ls, env => by simp only [SBlock.flat, SBlock.trace, SBlock.run, List.map_cons, flat_trace ls]

/-- What `preprocess` makes of well nested lines, with pragmas. -/
theorem select_entries (w : Setup) {s : St} (ht : TablesOk s) {b : SBlock} (hb : b.Ok) :
    ppRun w.sem 0 (PPState.init s) (b.texts.map classify) = trRun w.sem 0 (PPState.init s) (b.trace (fileSem w) s) ∧
    ∀ st os, ppRun w.sem 0 (PPState.init s) (b.texts.map classify) = .ok (st, os) → codes os = traceText w.sem (b.run (fileSem w) s).2 := by
  have hc := fun env t c => file_cond w env t c
  have hl := fun env t l => file_line w env t l
  obtain ⟨hlines, hok⟩ := sblock_lines b hb
  have htr : b.trace (fileSem w) s = b.tree.trace w.sem s := sblock_trace (P := TablesOk) hc hl b hb s ht
  have hrun : b.tree.run w.sem s = b.run (fileSem w) s := (sblock_run (P := TablesOk) hc hl b hb s ht).1
  have hmach := block_tr (i := 0) (s := PPState.init s) w.sem b.tree hok rfl (by simp [PPState.init])
  rw [hlines, htr]
  refine ⟨hmach, fun st os h => ?_⟩
  obtain ⟨_, _, _, e4⟩ := block_live b.tree hok (by simp [PPState.init]) h
  rw [e4]
  exact congrArg (fun x => traceText w.sem x.2) hrun

/-- C99 with pragmas among the selected lines: no line of the two files is dropped, and no pragma is selected right after text. -/
theorem C99_pragma_partial (w : Setup) (hg : gramOk w.castGram = true)
    (hj : ∀ f f' t t', Respaced f f' .free ';' t t' → w.junk t = w.junk t') {s : St} (ht : TablesOk s)
    {path text text' : Str} {b b' : SBlock} (hb : b.Ok) (hb' : b'.Ok) (h : IsSource text b.texts) (h' : IsSource text' b'.texts)
    (hsel : (b.run (fileSem w) (setFile s (some path))).2.map (·.2) = (b'.run (fileSem w) (setFile s (some path))).2.map (·.2))
    (hk : PlainLines w s path b.texts) (hk' : PlainLines w s path b'.texts)
    (hp : PragmaApart w.sem (b.trace (fileSem w) (setFile s (some path)))) (hp' : PragmaApart w.sem (b'.trace (fileSem w) (setFile s (some path))))
    (hloose : ∀ x ∈ (b.run (fileSem w) (setFile s (some path))).2, ∀ t, x.2 = .code t →
      Starts (w.sem.expand x.1 t) ∧ (w.sem.expand x.1 t).getLast? ≠ some '\\') :
    resultOf w s path text = resultOf w s path text' := by
  have ht0 := tablesOk_setFile ht (some path)
  obtain ⟨a1, a2⟩ := select_entries w ht0 hb
  obtain ⟨a1', a2'⟩ := select_entries w ht0 hb'
  have hi : PackInv 0 (PPState.init (setFile s (some path))) := PackInv.init _
  obtain ⟨c1, c2⟩ := entries_run (sem := w.sem) (b.trace (fileSem w) (setFile s (some path))) 0 _ hi
  obtain ⟨c1', c2'⟩ := entries_run (sem := w.sem) (b'.trace (fileSem w) (setFile s (some path))) 0 _ hi
  rw [selLines_trace] at c1 c2 c1' c2'
  rw [← hsel] at c1' c2'
  unfold resultOf processFile
  rw [preprocess_out, preprocess_out, source_lines h, source_lines h']
  cases hr : ppRun w.sem 0 (PPState.init (setFile s (some path))) (b.texts.map classify) with
  | error e =>
    have x1 := c1 e (a1.symm.trans hr)
    cases hr' : ppRun w.sem 0 (PPState.init (setFile s (some path))) (b'.texts.map classify) with
    | error e' =>
      have x2 := c1' e' (a1'.symm.trans hr')
      rw [x1] at x2
      cases x2
      rfl
    | ok q =>
      obtain ⟨cs, m, x2, _⟩ := c2' q.1 q.2 (a1'.symm.trans hr')
      rw [x1] at x2
      cases x2
  | ok q =>
    obtain ⟨st, os⟩ := q
    obtain ⟨cs, m, x1, x2, _, x4⟩ := c2 st os (a1.symm.trans hr)
    cases hr' : ppRun w.sem 0 (PPState.init (setFile s (some path))) (b'.texts.map classify) with
    | error e' =>
      have y := c1' e' (a1'.symm.trans hr')
      rw [x1] at y
      cases y
    | ok q' =>
      obtain ⟨st', os'⟩ := q'
      obtain ⟨cs', m', y1, y2, _, y4⟩ := c2' st' os' (a1'.symm.trans hr')
      rw [x1] at y1
      simp only [Except.ok.injEq, Prod.mk.injEq] at y1
      obtain ⟨hst, rfl⟩ := y1
      have henv : st'.env = st.env := (congrArg PPState.env hst).symm
      obtain ⟨k1, k2⟩ := hk st os hr
      obtain ⟨k1', k2'⟩ := hk' st' os' hr'
      have len : ∀ (b : SBlock), (b.trace (fileSem w) (setFile s (some path))).length = b.texts.length := fun b => trace_length b _
      have t1 := x4 (by rw [len]; exact k1) (apart_entries hp) k2 _ [] _ rfl rfl (by rw [← x2]; exact pkFun_out os st.packList)
      have t2 := y4 (by rw [len]; exact k1') (apart_entries hp') k2' _ [] _ rfl rfl (by rw [← y2]; exact pkFun_out os' st'.packList)
      have hF := respP_out (followsP_tagged cs t1 t2 (by
        rw [← tagged_codes t1, a2 st os hr]
        intro t hm
        simp only [traceText, List.mem_flatMap] at hm
        obtain ⟨⟨e, l⟩, hx, hm⟩ := hm
        cases l with
        | code t0 =>
          simp only [lineText, List.mem_singleton] at hm
          subst hm
          exact hloose _ hx t0 rfl
        | _ => simp [lineText] at hm))
      have := C59_texts_partial (g := ⟨w.cfg, w.mods, w.ev, fun _ => none, w.junk⟩) hg st.env (hj _ _) hF
      have g : ∀ (packs : List (Nat × Option Nat)) (out : Str),
          w.gram packs out = (⟨w.cfg, w.mods, w.ev, fun _ => none, w.junk⟩ : Gram).withPack (fun n => structPacking packs out (out.length - n)) := fun _ _ => rfl
      simp only [outOf, henv]
      rw [g, g, this]
      split <;> rfl

/-- C99 with pragmas, for the header that consists of the chosen lines. -/
theorem C99_resolved_pragma_partial (w : Setup) (hg : gramOk w.castGram = true)
    (hj : ∀ f f' t t', Respaced f f' .free ';' t t' → w.junk t = w.junk t') {s : St} (ht : TablesOk s)
    {path text text' : Str} {b : SBlock} (hb : b.Ok) (h : IsSource text b.texts)
    (h' : IsSource text' ((b.chosen (fileSem w) (setFile s (some path))).map (·.1)))
    (hk : PlainLines w s path b.texts) (hk' : PlainLines w s path ((b.chosen (fileSem w) (setFile s (some path))).map (·.1)))
    (hp : PragmaApart w.sem (b.trace (fileSem w) (setFile s (some path))))
    (hp' : PragmaApart w.sem ((b.run (fileSem w) (setFile s (some path))).2.map fun x => .sel x.1 x.2))
    (hloose : ∀ x ∈ (b.run (fileSem w) (setFile s (some path))).2, ∀ t, x.2 = .code t →
      Starts (w.sem.expand x.1 t) ∧ (w.sem.expand x.1 t).getLast? ≠ some '\\') :
    resultOf w s path text = resultOf w s path text' := by
  have hrun : (SBlock.flat (b.chosen (fileSem w) (setFile s (some path)))).run (fileSem w) (setFile s (some path)) =
      b.run (fileSem w) (setFile s (some path)) := by rw [flat_run, chosen_lines, ← sblock_lineRun]
  refine C99_pragma_partial w hg hj ht hb (flat_ok _ (chosen_ok b (setFile s (some path)) hb)) h (by rw [flat_texts]; exact h')
    (by rw [hrun]) hk (by rw [flat_texts]; exact hk') hp ?_ hloose
  rw [flat_trace, hrun]
  exact hp'

/-- C100 with pragmas. -/
theorem C100_pragma_partial (w : Setup) (hg : gramOk w.castGram = true)
    (hj : ∀ f f' t t', Respaced f f' .free ';' t t' → w.junk t = w.junk t') {s : St} (ht : TablesOk s)
    {path text text' : Str} {b b' : SBlock} (hb : b.Ok) (hb' : b'.Ok) (h : IsSource text b.texts) (h' : IsSource text' b'.texts)
    (ha : BlockAlike b b') (hk : PlainLines w s path b.texts) (hk' : PlainLines w s path b'.texts)
    (hp : PragmaApart w.sem (b.trace (fileSem w) (setFile s (some path)))) (hp' : PragmaApart w.sem (b'.trace (fileSem w) (setFile s (some path))))
    (hloose : ∀ x ∈ (b.run (fileSem w) (setFile s (some path))).2, ∀ t, x.2 = .code t →
      Starts (w.sem.expand x.1 t) ∧ (w.sem.expand x.1 t).getLast? ≠ some '\\') :
    resultOf w s path text = resultOf w s path text' :=
  C99_pragma_partial w hg hj ht hb hb' h h' (by rw [alike_run w ha hb (tablesOk_setFile ht (some path))]) hk hk' hp hp' hloose

/-! ### Examples -/

def headPragmaB {E : Type} : List (Entry E) → Bool
  | .sel _ (.pragma _) :: _ => true
  | _ => false

/-- `PragmaApart`, computed. -/
def apartEB {E : Type} : List (Entry E) → Bool
  | [] => true
  | .sel _ (.code t) :: es => (!headPragmaB es || t.isEmpty) && apartEB es
  | _ :: es => apartEB es

theorem apartEB_tail {E : Type} {x : Entry E} {es : List (Entry E)} (h : apartEB (x :: es) = true) : apartEB es = true := by
  cases x with
  | sel env l =>
    cases l with
    | code t =>
      simp only [apartEB, Bool.and_eq_true] at h
      exact h.2
    | _ => exact h
  | _ => exact h

theorem pragma_apart_check {w : Setup} {es : List (Entry St)} (h : apartEB es = true) : PragmaApart w.sem es := by
  intro a env t env' r b he e
  have ht : t = [] := by
    induction a generalizing es with
    | nil =>
      subst he
      simp only [List.nil_append, apartEB, headPragmaB, Bool.not_true, Bool.false_or, Bool.and_eq_true, List.isEmpty_iff] at h
      exact h.1
    | cons x a ih =>
      subst he
      refine ih (es := a ++ .sel env (.code t) :: .sel env' (.pragma r) :: b) ?_ rfl
      exact apartEB_tail h
  subst ht
  rw [show w.sem.expand e [] = [] from expand_nil w.orc (menvOf e)]
  rfl

/-- The conditions on the text selected, computed. -/
def textB (w : Setup) (x : St × Line) : Bool :=
  match x.2 with
  | .code t => startsB (w.sem.expand x.1 t) && (w.sem.expand x.1 t).getLast? != some '\\'
  | _ => true

theorem text_check {w : Setup} {ls : List (St × Line)} (h : ls.all (textB w) = true) :
    ∀ x ∈ ls, ∀ t, x.2 = .code t → Starts (w.sem.expand x.1 t) ∧ (w.sem.expand x.1 t).getLast? ≠ some '\\' := by
  rw [List.all_eq_true] at h
  intro x hx t e
  have := h x hx
  rw [textB, e] at this
  simp only [Bool.and_eq_true, bne_iff_ne] at this
  exact ⟨starts_check this.1, this.2⟩

/-- A conditional and a structure in a packing. -/
def packIf : SBlock :=
  .cond c%"#ifdef W" (.ifdef c%"W") (.leaf c%"struct R { int q; };" (.code c%"struct R { int q; };") .nil) (.endif c%"#endif")
    (.leaf c%"#pragma pack(1)" (.pragma c%" pack(1)") (.leaf c%"struct S { char c; int x; };" (.code c%"struct S { char c; int x; };")
      (.leaf [] (.code []) (.leaf c%"#pragma pack()" (.pragma c%" pack()") (.leaf c%"struct U { char c; };" (.code c%"struct U { char c; };") .nil)))))

def packIfText : Str := c%"#ifdef W\nstruct R { int q; };\n#endif\n#pragma pack(1)\nstruct S { char c; int x; };\n\n#pragma pack()\nstruct U { char c; };"
def packNoIfText : Str := c%"#pragma pack(1)\nstruct S { char c; int x; };\n\n#pragma pack()\nstruct U { char c; };"

theorem packIf_ok : packIf.Ok := by
  have b0 : Blank [] := by simp [Blank]
  have b1 : Blank [' '] := by simp [Blank]
  exact ⟨.ifdef _ c%" W" c%"W" [] ⟨[], [], b0, b0, rfl, by simp <;> decide⟩ ⟨[' '], by simp, b1, ⟨'W', [], rfl, by decide, by simp⟩, rfl, by simp⟩ b0,
    ⟨code_leaf (by decide), trivial⟩, ⟨[], [], [], b0, b0, rfl, by simp⟩,
    .pragma _ _ ⟨[], [], b0, b0, rfl, by simp⟩, code_leaf (by decide), code_leaf (by decide), .pragma _ _ ⟨[], [], b0, b0, rfl, by simp⟩,
    code_leaf (by decide), trivial⟩

theorem C99_pragma_example :
    resultOf exSetup Store.empty c%"t.h" packIfText = resultOf exSetup Store.empty c%"t.h" packNoIfText ∧
    filePack packIfText c%"S" = some (some 1) ∧ filePack packIfText c%"U" = some none := by
  have hA : IsSource packIfText packIf.texts :=
    plain_source (by decide) (by decide) (by decide) (by decide) (by decide) rfl (by decide) (by decide)
  have hc : (packIf.chosen (fileSem exSetup) (setFile Store.empty (some c%"t.h"))).map (·.1) =
      [c%"#pragma pack(1)", c%"struct S { char c; int x; };", [], c%"#pragma pack()", c%"struct U { char c; };"] := by decide +kernel
  refine ⟨C99_resolved_pragma_partial exSetup (by decide) (fun _ _ _ _ _ => rfl) tablesOk_empty packIf_ok hA ?_ (plain_check (by decide +kernel)) ?_
    (pragma_apart_check (by decide +kernel)) (pragma_apart_check (by decide +kernel)) (text_check (by decide +kernel)), by decide +kernel, by decide +kernel⟩
  · rw [hc]
    exact plain_source (by decide) (by decide) (by decide) (by decide) (by decide) rfl (by decide) (by decide)
  · rw [hc]
    exact plain_check (by decide +kernel)

/-- C99 fails for a pragma right after text: resolving the conditional between them changes the packing of the structure before it. -/
theorem C99_counterexample_after :
    filePack c%"struct S { char c; int x; };\n#if 1\n#pragma pack(1)\n#endif" c%"S" = some none ∧
    filePack c%"struct S { char c; int x; };\n#pragma pack(1)" c%"S" = some (some 1) := ⟨by decide +kernel, by decide +kernel⟩

end Pyclib
