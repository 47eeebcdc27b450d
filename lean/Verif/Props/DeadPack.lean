import Verif.Proof.DeadPack
/-! Theorems about text that is skipped in files with pragmas (C98). -/
namespace Pyclib
open Spec

/-- C98 where pragmas stand before and after the region: regions of any number of lines without definitions and pragmas may be exchanged, the
packings of all structures stay the same.  No line before the region is dropped, and the first line after it is no pragma. -/
theorem C98_pragma_partial (w : Setup) (hg : gramOk w.castGram = true)
    (hj : ∀ f f' t t', Respaced f f' .free ';' t t' → w.junk t = w.junk t') {s : St} {path text text' : Str} {la lb : List Str}
    {d d' : SBlock} (hd : d.Ok) (hd' : d'.Ok)
    (h : IsSource text (la ++ (d.texts ++ lb))) (h' : IsSource text' (la ++ (d'.texts ++ lb))) (hs : Off w s path la)
    (hn : ∀ t ∈ d.texts ++ d'.texts, NoEffect t) (hk : PlainLines w s path la) (hpr : ∀ t r, lb.head? = some t → classify t ≠ .pragma r)
    (hl : Loose w s path la lb) : resultOf w s path text = resultOf w s path text' := by
  unfold resultOf processFile
  rw [preprocess_out, preprocess_out, source_lines h, source_lines h', around_classify la hd, around_classify la hd', ppRun_append, ppRun_append]
  cases hr : ppRun w.sem 0 (PPState.init (setFile s (some path))) (la.map classify) with
  | error e => rfl
  | ok q =>
    obtain ⟨st, o1⟩ := q
    have hz := off_cons (hs st o1 hr)
    obtain ⟨os, g1, g2⟩ := block_dead d.tree (sblock_lines d hd).2 (sem := w.sem) (i := 0 + (la.map classify).length) hz
    obtain ⟨os', g1', g2'⟩ := block_dead d'.tree (sblock_lines d' hd').2 (sem := w.sem) (i := 0 + (la.map classify).length) hz
    have cond : ∀ d0 : SBlock, d0.Ok → (∀ t ∈ d0.texts, NoEffect t) → ∀ l ∈ d0.tree.lines,
        (∀ n r, l ≠ .define n r) ∧ (∀ n, l ≠ .undef n) ∧ ∀ r, l ≠ .pragma r := by
      intro d0 h0 ht l hl
      rw [← (sblock_lines d0 h0).1] at hl
      obtain ⟨t, h1, rfl⟩ := List.mem_map.1 hl
      exact ht t h1
    have n1 := ppRun_keeps _ g1 (cond d hd (fun t ht => hn t (by simp [ht])))
    have n2 := ppRun_keeps _ g1' (cond d' hd' (fun t ht => hn t (by simp [ht])))
    simp only [andThen_ok]
    rw [ppRun_append, ppRun_append, g1, g1']
    simp only [andThen_ok]
    obtain ⟨hlen, hnl⟩ := hk st o1 hr
    have hi0 : 0 + (la.map classify).length = o1.length := by simp [hlen]
    rw [hi0, ← n1, ← n2, Nat.add_comm o1.length, Nat.add_comm o1.length]
    have hP : ∀ q ∈ st.packList, q.1 ≤ o1.length := by
      intro q hq
      have := (ppRun_packInv (PackInv.init _) hr).lt q hq
      rw [hi0] at this
      omega
    have e0 : st.withPacks st.packList = st := rfl
    have a1 := ppRun_shift (sem := w.sem) os.length (lb.map classify) o1.length st st.packList
    have a2 := ppRun_shift (sem := w.sem) os'.length (lb.map classify) o1.length st st.packList
    rw [e0] at a1 a2
    rcases a1 with ⟨e, c1, c2⟩ | ⟨S1, o2, m, c1, c2, c3, _, c4⟩
    · rcases a2 with ⟨e', c1', c2'⟩ | ⟨S1', o2', m', c1', c2', c3', _, c4'⟩
      · rw [c1] at c1'
        cases c1'
        rw [c2, c2']
      · rw [c1] at c1'
        cases c1'
    · rcases a2 with ⟨e', c1', c2'⟩ | ⟨S1', o2', m', c1', c2', c3', _, c4'⟩
      · rw [c1] at c1'
        cases c1'
      · rw [c1] at c1'
        cases c1'
        rw [c3] at c3'
        have hm := List.append_cancel_left c3'
        subst hm
        have hm : ∀ q ∈ m, o1.length < q.1 := by
          intro q hq
          refine c4 (fun l r hl' => ?_) q hq
          rw [List.head?_map] at hl'
          obtain ⟨t, ht, rfl⟩ := Option.map_eq_some_iff.1 hl'
          exact hpr t r ht
        obtain ⟨k1, k2⟩ := hl st o1 hr
        obtain ⟨k3, k4⟩ := k2 _ _ o2 c1
        rw [c2, c2']
        have hF := respP_around (P := st.packList) (m := m) g2 g2' k1 k3 hnl hP hm (pkFun_out _ _) (pkFun_out _ _)
        have := C59_texts_partial (g := ⟨w.cfg, w.mods, w.ev, fun _ => none, w.junk⟩) hg S1.env (hj _ _) hF
        have g : ∀ (packs : List (Nat × Option Nat)) (out : Str),
            w.gram packs out = (⟨w.cfg, w.mods, w.ev, fun _ => none, w.junk⟩ : Gram).withPack (fun n => structPacking packs out (out.length - n)) := fun _ _ => rfl
        simp only [andThen_ok, outOf, PPState.withPacks]
        rw [g, g, this]
        split <;> rfl

/-! ### An example -/

/-- `PlainLines`, computed. -/
def plainB (w : Setup) (s : St) (path : Str) (la : List Str) : Bool :=
  match ppRun w.sem 0 (PPState.init (setFile s (some path))) (la.map classify) with
  | .error _ => true
  | .ok q => decide (q.2.length = la.length) && q.2.all fun o => decide ('\n' ∉ o.text)

theorem plain_check {w : Setup} {s : St} {path : Str} {la : List Str} (h : plainB w s path la = true) : PlainLines w s path la := by
  intro st os hr
  simp only [plainB, hr, Bool.and_eq_true, decide_eq_true_eq, List.all_eq_true] at h
  exact h

/-- `Loose`, computed, whatever the lines after the region. -/
theorem loose_check_pk {w : Setup} {s : St} {path : Str} {la lb : List Str} (h : looseB w s path la lb = true) : Loose w s path la lb := by
  intro st os hr
  simp only [looseB, hr, Bool.and_eq_true, bne_iff_ne] at h
  refine ⟨h.1, fun i st' os' hb => ?_⟩
  have a := ppRun_shift (sem := w.sem) i (lb.map classify) 0 st st.packList
  rw [show st.withPacks st.packList = st from rfl, Nat.add_zero, hb] at a
  rcases a with ⟨e, _, c2⟩ | ⟨S1, o2, m, c1, c2, _⟩
  · cases c2
  · cases c2
    simp only [c1, Bool.and_eq_true, bne_iff_ne] at h
    exact ⟨starts_check h.2.1, h.2.2⟩

def packFront : SBlock :=
  .leaf c%"#pragma pack(1)" (.pragma c%" pack(1)") (.leaf c%"struct S { char c; int x; };" (.code c%"struct S { char c; int x; };")
    (.leaf [] (.code []) .nil))

theorem packFront_ok : packFront.Ok := by
  have b0 : Blank [] := by simp [Blank]
  exact ⟨.pragma _ _ ⟨[], [], b0, b0, rfl, by simp⟩, code_leaf (by decide), code_leaf (by decide), trivial⟩

def packDead : SBlock :=
  .leaf c%"struct S {" (.code c%"struct S {") (.leaf c%"#error no" .other (.leaf c%"}}" (.code c%"}}") .nil))

theorem packDead_ok : packDead.Ok := by
  have b0 : Blank [] := by simp [Blank]
  exact ⟨code_leaf (by decide), .other _ c%"error" c%" no" ⟨[], [], b0, b0, rfl, by simp⟩ (by decide) (by decide) (by decide),
    code_leaf (by decide), trivial⟩

def packBack : List Str := [c%"#endif", c%"#pragma pack(2)", c%"struct T { char c; int x; };"]

def packDeadText : Str :=
  c%"#pragma pack(1)\nstruct S { char c; int x; };\n\n#if 0\nstruct S {\n#error no\n}}\n#endif\n#pragma pack(2)\nstruct T { char c; int x; };"
def packLiveText : Str :=
  c%"#pragma pack(1)\nstruct S { char c; int x; };\n\n#if 0\n#endif\n#pragma pack(2)\nstruct T { char c; int x; };"

/-- A header with packings before and after the region. -/
theorem C98_pragma_example :
    IsSource packDeadText ((packFront.texts ++ [c%"#if 0"]) ++ (packDead.texts ++ packBack)) ∧
    IsSource packLiveText ((packFront.texts ++ [c%"#if 0"]) ++ (SBlock.nil.texts ++ packBack)) ∧
    resultOf exSetup Store.empty c%"t.h" packDeadText = resultOf exSetup Store.empty c%"t.h" packLiveText ∧
    filePack packDeadText c%"S" = some (some 1) ∧ filePack packDeadText c%"T" = some (some 2) := by
  have b0 : Blank [] := by simp [Blank]
  have hA : IsSource packDeadText ((packFront.texts ++ [c%"#if 0"]) ++ (packDead.texts ++ packBack)) :=
    plain_source (by decide) (by decide) (by decide) (by decide) (by decide) rfl (by decide) (by decide)
  have hB : IsSource packLiveText ((packFront.texts ++ [c%"#if 0"]) ++ (SBlock.nil.texts ++ packBack)) :=
    plain_source (by decide) (by decide) (by decide) (by decide) (by decide) rfl (by decide) (by decide)
  have hn := (sblock_run (P := TablesOk) (fun env t c => file_cond exSetup env t c) (fun env t l => file_line exSetup env t l) packFront packFront_ok _
    (tablesOk_setFile tablesOk_empty (some c%"t.h"))).2.2
  have hoff := C98_if exSetup tablesOk_empty (path := c%"t.h") packFront_ok (t0 := c%"#if 0") (c := .expr (blanks 1 ++ '0' :: blanks 0))
    (.expr _ _ ⟨[], [], b0, b0, rfl, by simp [blanks]⟩) (C98_zero exSetup hn 1 0)
  refine ⟨hA, hB, C98_pragma_partial exSetup (by decide) (fun _ _ _ _ _ => rfl) packDead_ok (d' := .nil) trivial hA hB hoff ?_
    (plain_check (by decide +kernel)) ?_ (loose_check_pk (by decide +kernel)), by decide +kernel, by decide +kernel⟩
  · intro t ht
    simp only [packDead, SBlock.texts, List.append_nil, List.mem_cons, List.not_mem_nil, or_false] at ht
    rcases ht with rfl | rfl | rfl <;> exact ⟨fun _ _ => Line.noConfusion, fun _ => Line.noConfusion, fun _ => Line.noConfusion⟩
  · intro t r ht
    simp only [packBack, List.head?_cons, Option.some.injEq] at ht
    subst ht
    exact Line.noConfusion

end Pyclib
