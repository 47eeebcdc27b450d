import Verif.Proof.SplitPack
/-! C97 where the second part has pragmas. -/
namespace Pyclib
open Spec

theorem parse_join_pk (w : Setup) (hg : gramOk w.castGram = true) (hj : ∀ f f' t t', Respaced f f' .free ';' t t' → w.junk t = w.junk t') {k : Nat}
    {oa ob : List Out} (hk : oa.length = k) (hn : ∀ o ∈ oa, '\n' ∉ o.text) (h0 : k ≠ 0) {m : List (Nat × Option Nat)} (hm : ∀ q ∈ m, 1 ≤ q.1)
    {s s' : St} {ts : List Tk} {tail : Str} (hh : CHeader ⟨w.cfg, w.mods, w.ev, fun _ => none, w.junk⟩ s ts s')
    (hl : Lay ⟨tail, fun _ => none⟩ ' ' (joinC '\n' (oa.map Out.text)) ts) (ht : tail.all isWhite = true) (hC : ∀ u ∈ ts, u.w ≠ c%"\"C\"") :
    parseDefs (w.gram ((0, none) :: shiftPacks k m) (joinC '\n' ((oa ++ ob).map Out.text))) s (joinC '\n' ((oa ++ ob).map Out.text)) =
      parseDefs (w.gram ((0, none) :: m) (joinC '\n' (ob.map Out.text))) s' (joinC '\n' (ob.map Out.text)) := by
  have ha : oa ≠ [] := by rintro rfl; simp at hk; omega
  have hc : ((joinC '\n' (oa.map Out.text)).filter (· = '\n')).length + 1 = k := by
    rw [join_count _ (by simpa using ha) (by
      intro l hl
      obtain ⟨o, ho, rfl⟩ := List.mem_map.1 hl
      exact hn o ho)]
    simpa using hk
  by_cases hb : ob = []
  · subst hb
    rw [List.append_nil]
    have hp : (w.gram ((0, none) :: shiftPacks k m) (joinC '\n' (oa.map Out.text))).pack = fun _ => none := by
      funext n
      have := pack_first (x := []) hc hm (n := n) (by simp)
      rw [List.append_nil] at this
      exact this
    have hh' := header_pack (p := (w.gram ((0, none) :: shiftPacks k m) (joinC '\n' (oa.map Out.text))).pack) hh
    rw [parseDefs_read (g := w.gram ((0, none) :: shiftPacks k m) (joinC '\n' (oa.map Out.text))) hg hh' (by rw [hp]; exact hl) ht]
    exact (scan_end _ _ _ rfl).symm
  · rw [joinC_outs oa ob ha hb]
    have hh' := header_pack (p := (w.gram ((0, none) :: shiftPacks k m) (joinC '\n' (oa.map Out.text) ++ '\n' :: joinC '\n' (ob.map Out.text))).pack) hh
    exact parseDefs_split_pk (g := w.gram ((0, none) :: shiftPacks k m) (joinC '\n' (oa.map Out.text) ++ '\n' :: joinC '\n' (ob.map Out.text))) hg
      (fun n hn => pack_first hc hm (by simp; omega)) (fun n hn => pack_second hc m hn) hj hh' hl ht hC

/-- C97 where the second part has `#pragma pack`: its first line is not a pragma, and the first part has no pragmas and loses no lines (the
parser looks up packings by line, `C64_counterexample_line` and `C64_counterexample_skipped`). -/
theorem C97_pragma_partial (w : Setup) (hp : PyWords w.py) (hg : gramOk w.castGram = true)
    (hj : ∀ f f' t t', Respaced f f' .free ';' t t' → w.junk t = w.junk t') {s s1 : St} (hs : TablesOk s)
    {path path2 A B AB : Str} {b : SBlock} {lb : List Str} {ws : List Str} {S : Scope} (hA : IsSource A b.texts) (hB : IsSource B lb)
    (hAB : IsSource AB (b.texts ++ lb)) (hb : b.Ok) (hw : FileWords w.sem (b.trace (fileSem w) (setFile s (some path))) ws)
    (hh : CHeader ⟨w.cfg, w.mods, w.ev, fun _ => none, w.junk⟩ (b.run (fileSem w) (setFile s (some path))).1 (ws.map (⟨·, none⟩)) s1)
    (hcov : Covers ⟨w.cfg, w.mods, w.ev, fun _ => none, w.junk⟩ S (ws.map (⟨·, none⟩))) (hC : c%"\"C\"" ∉ ws)
    (hprA : ∀ l ∈ b.texts.map classify, ∀ r, l ≠ .pragma r) (hk : PlainLines w s path b.texts)
    (hpr : ∀ l r, (ppLines B).head? = some l → l ≠ .pragma r) (hap : MacrosApart w S s1 path2 B) :
    (∀ e, processFiles w s [(path, A), (path2, B)] = .error e → resultOf w s path AB = .error e) ∧
    ∀ u, processFiles w s [(path, A), (path2, B)] = .ok u → ∃ u', resultOf w s path AB = .ok u' ∧ ∀ k n, dget (u'.defs k) n = dget (u.defs k) n := by
  have hs0 := tablesOk_setFile hs (some path)
  obtain ⟨st, oa, r1, henv, hpk, hf1, hf2⟩ := words_state w hs0 hb hw
  obtain ⟨outA, e1⟩ := C64_file_partial w hg hs (path := path) (text := A) ⟨b, _, hA, hb, .inl ⟨ws, hw, rfl⟩, hh⟩
  have hs1 := file_tablesOk w hg hs (path := path) (text := A) ⟨b, _, hA, hb, .inl ⟨ws, hw, rfl⟩, hh⟩
  obtain ⟨st', out, q1, _, tail, ht, hl⟩ := file_tokens w hs0 hA hb (.inl ⟨ws, hw, rfl⟩)
  have hq : st' = st ∧ out = joinC '\n' (oa.map Out.text) := by
    simp only [preprocess, source_lines hA, r1, Except.ok.injEq, Prod.mk.injEq] at q1
    exact ⟨q1.1.symm, q1.2.symm⟩
  obtain ⟨rfl, rfl⟩ := hq
  have hl : Lay ⟨tail, fun _ => none⟩ ' ' (joinC '\n' (oa.map Out.text)) (ws.map (⟨·, none⟩)) := by
    rw [hpk] at hl
    simpa [structPacking, packingAt, packingAtFrom] using hl
  -- the declarations of the first part
  rw [← henv] at hh
  have hmac : s1.defs .macros = st'.env.defs .macros ∧ s1.defs .fnmacros = st'.env.defs .fnmacros := by
    have := e1
    unfold processFile at this
    rw [q1] at this
    simp only at this
    have ha := adds_parseDefs (w.gram st'.packList (joinC '\n' (oa.map Out.text))) st'.env (joinC '\n' (oa.map Out.text))
    split at this
    · rename_i s2 e2
      cases this
      rw [e2] at ha
      obtain ⟨m1, m2, _⟩ := adds_macros ha
      exact ⟨m1, m2⟩
    · cases this
  have hm0 : MacOk st'.env := ⟨fun p hp => hs1.1.1 p (by rw [hmac.1]; exact hp), fun p hp => hs1.1.2 p (by rw [hmac.2]; exact hp)⟩
  obtain ⟨_, _, _, hk1, _⟩ := header_out hh hcov (t := st'.env) ⟨fun _ _ => rfl, fun _ _ _ _ => rfl⟩
  -- the lines of the second part
  have hagree : AgreeOn (LinesRead w s1 path2 B) (setFile s1 (some path2)) st'.env := by
    intro k n hr
    have hk : isMac k ∨ k = .values := by
      obtain ⟨_, _, _, _, _, _, _, hr⟩ := hr
      exact lineReads_kind hr
    rcases hk with (rfl | rfl) | rfl
    · show dget (s1.defs .macros) n = _
      rw [hmac.1]
    · show dget (s1.defs .fnmacros) n = _
      rw [hmac.2]
    · exact hk1 .values n (hap.reads n hr)
  have hstep := ppRun_same hp (U := fun n => .undef n ∈ ppLines B) (R := LinesRead w s1 path2 B) (ppLines B) 0
    (PPState.init (setFile s1 (some path2))) st'.env (setFile_macOk hs1.1 _) hm0 (fun n hn => hn)
    (fun a l b st os e1 e2 k n hk => ⟨a, l, b, st, os, e1, e2, hk⟩) hagree
  have hkl := hk st' oa r1
  have hst : st' = (PPState.init st'.env).withPacks [(0, none)] := by
    have := ppRun_pk w.sem (PPState.init (setFile s (some path))) (b.texts.map classify) hprA 0 0 (PPState.init (setFile s (some path)))
    rw [show (PPState.init (setFile s (some path))).withPk (PPState.init (setFile s (some path))) = PPState.init (setFile s (some path)) from rfl, r1] at this
    simp only [Except.map, Except.ok.injEq, Prod.mk.injEq, and_true] at this
    have h1 : st'.packStack = [(none, none)] := by rw [this]; rfl
    have h2 : st'.packing = none := by rw [this]; rfl
    obtain ⟨env, it, ih, ps, pk, pl⟩ := st'
    simp only at hf1 hf2 h1 h2 hpk
    subst hf1 hf2 h1 h2 hpk
    rfl
  have hrun := ppRun_shift (sem := w.sem) (b.texts.map classify).length (ppLines B) 0 (PPState.init st'.env) [(0, none)]
  rw [← hst] at hrun
  have hlb : ppLines B = lb.map classify := by unfold ppLines; rw [source_lines hB]
  have e0 : (PPState.init (setFile s1 (some path2))).mapE (fun _ => st'.env) = PPState.init st'.env := rfl
  rw [e0] at hstep
  have hdef : ∀ a o, ppRun w.sem 0 (PPState.init (setFile s1 (some path2))) (ppLines B) = .ok (a, o) → ∀ k n,
      FileDefines a.env path2 B k n → LinesDefine w s1 path2 B k n := fun a o h k n hd => ⟨a, o, h, hd⟩
  have eAB : preprocess w.sem (setFile s (some path)) (removeComments AB) =
      outOf (andThen (.ok (st', oa)) (fun x => ppRun w.sem ((b.texts.map classify).length + 0) x (ppLines B))) := by
    rw [← r1, hlb, show (b.texts.map classify).length + 0 = 0 + (b.texts.map classify).length from Nat.add_comm _ _, ← ppRun_append, ← List.map_append, ← source_lines hAB]
    exact preprocess_out _ _ _
  have eB : preprocess w.sem (setFile s1 (some path2)) (removeComments B) =
      outOf (ppRun w.sem 0 (PPState.init (setFile s1 (some path2))) (ppLines B)) := preprocess_out _ _ _
  simp only [processFiles, e1]
  unfold resultOf processFile
  rw [eAB, eB]
  simp only [andThen_ok]
  revert hstep hdef hrun
  generalize ppRun w.sem 0 (PPState.init (setFile s1 (some path2))) (ppLines B) = x
  generalize ppRun w.sem 0 (PPState.init st'.env) (ppLines B) = y
  generalize ppRun w.sem ((b.texts.map classify).length + 0) st' (ppLines B) = z
  intro hstep hrun hdef
  cases hstep with
  | error e =>
    rcases hrun with ⟨e', q1, q2⟩ | ⟨_, _, _, q1, _⟩
    · cases q1
      rw [q2]
      exact ⟨fun e' h => by simpa [outOf, Except.map] using h, fun u h => by simp [outOf] at h⟩
    · cases q1
  | ok a env o h2 h3 h4 =>
    rcases hrun with ⟨e', q1, q2⟩ | ⟨S1, os, m, q1, rfl, q3, _, q5⟩
    · cases q1
    cases q1
    have hm := q5 (fun l r hl => hpr l r hl)
    have hp2 : a.packList = (0, none) :: m := q3
    have hd := hdef a o rfl
    obtain ⟨ops, ho, hx1, hx2⟩ := h2
    rw [show (PPState.init (setFile s1 (some path2))).env = setFile s1 (some path2) from rfl] at hx1
    have untouched : ∀ k n, ¬ LinesDefine w s1 path2 B k n → ∀ t : St, dget ((runOps t ops).defs k) n = dget (t.defs k) n := by
      intro k n hn t
      refine runOps_untouched (fun h => hn (hd k n (.inr h))) ops (setFile s1 (some path2)) t ho ?_
      rw [← hx1]
      by_cases hc : recorded a.env (some (basename path2)) k n = none
      · exact hc
      · exact absurd (hd k n (.inl hc)) hn
    have hso : SameOn S st'.env env := by
      refine ⟨fun n hn => ?_, fun k _ n hn => ?_⟩
      · rw [hx2, untouched .values n (fun h => hap.vals n h hn)]
      · rw [hx2, untouched k n (fun h => hap.tags k n h hn)]
    obtain ⟨u1, c1, _, _, c4⟩ := header_out hh hcov hso
    obtain ⟨_, _, _, hk2, _⟩ := header_out c1 hcov (t := env) ⟨fun _ _ => rfl, fun _ _ _ _ => rfl⟩
    have hall : AgreeOn (fun _ _ => True) a.env u1 := by
      intro k n _
      by_cases hn : S.names n
      · have hu := untouched k n (fun h => hap.names k n h hn)
        have g1 : dget (a.env.defs k) n = dget (s1.defs k) n := by rw [hx1, hu]; rfl
        have g2 : dget (env.defs k) n = dget (st'.env.defs k) n := by rw [hx2, hu]
        rcases c4 k n with ⟨g3, g4⟩ | g3
        · rw [g1, g3, g4, g2]
        · rw [g1, g3]
      · rw [hk2 k n hn]
        have ha2 : AgreeOn (fun k' n' => k' = k ∧ n' = n) (setFile s1 (some path2)) st'.env := by
          rintro _ _ ⟨rfl, rfl⟩
          exact hk1 _ _ hn
        have := (show SameOps (fun n => .undef n ∈ ppLines B) (setFile s1 (some path2)) a.env st'.env env from ⟨ops, ho, hx1, hx2⟩).agree ha2
        exact this k n ⟨rfl, rfl⟩
    have hjoin := parse_join_pk w hg hj (k := (b.texts.map classify).length) (by simpa using hkl.1) hkl.2
      (by
        have := hA
        obtain ⟨_, _, _, _, _, _, _, _, _, hne, _⟩ := this
        simpa using fun h => hne h) hm c1 hl ht (by
      intro u hu
      obtain ⟨x, hx, rfl⟩ := List.mem_map.1 hu
      rintro rfl
      exact hC hx) (ob := o)
    simp only [outOf, PPState.mapE, PPState.withPacks, hp2, List.singleton_append]
    rw [hjoin]
    have hne := noEmpty_of_ok hg
    obtain ⟨h6, h7⟩ := C85_parse (w := w) hp (fun h => hne.1 (by simp only [fundWords, baseTypes, List.mem_append]; exact .inr (.inr h))) hne.2 ((0, none) :: m) (text := joinC '\n' (o.map Out.text)) (s := a.env) (t := u1)
      (fun k n _ => hall k n trivial)
    have h8 := h7.agree hall
    revert h6 h8
    clear h7
    generalize parseDefs (w.gram ((0, none) :: m) (joinC '\n' (o.map Out.text))) a.env (joinC '\n' (o.map Out.text)) = p
    generalize parseDefs (w.gram ((0, none) :: m) (joinC '\n' (o.map Out.text))) u1 (joinC '\n' (o.map Out.text)) = q
    obtain ⟨p1, p2⟩ := p
    obtain ⟨q1, q2⟩ := q
    intro h6 h8
    simp only at h6 h8
    subst h6
    cases q2 with
    | some e => exact ⟨fun e' h => by simpa [Except.map] using h, fun u h => by simp at h⟩
    | none =>
      refine ⟨fun e' h => by simp at h, fun u h => ⟨q1, rfl, fun k n => ?_⟩⟩
      simp only [Except.ok.injEq] at h
      rw [← h]
      exact (h8 k n trivial).symm


/-! ### Example -/

/-- A second part with packed structures. -/
def splitP : Str :=
  c%"struct T *q;\n#pragma pack(push, 1)\nstruct U { char c; struct T t; };\n\n#pragma pack(pop)\nstruct V { char c; int i; };"

def splitLinesP : List Str :=
  [c%"struct T *q;", c%"#pragma pack(push, 1)", c%"struct U { char c; struct T t; };", [], c%"#pragma pack(pop)", c%"struct V { char c; int i; };"]

/-- Both in one file. -/
def splitAP : Str :=
  c%"#define N 4\nstruct T { int z; };\nstruct T *q;\n#pragma pack(push, 1)\nstruct U { char c; struct T t; };\n\n#pragma pack(pop)\nstruct V { char c; int i; };"

/-- The lines of the second part record nothing. -/
def silentP : Bool :=
  match ppRun exSetup.sem 0 (PPState.init (setFile splitS1 (some c%"b.h"))) (ppLines splitP) with
  | .ok r => match dget r.1.env.fileDefs (some (basename c%"b.h")) with
    | some e => [Kind.types, .variables, .fnmacros, .macros, .structs, .unions, .enums, .functions, .values].all fun k => (e k).isEmpty
    | none => true
  | .error _ => false

theorem splitP_lines : ppLines splitP = [.code c%"struct T *q;", .pragma c%" pack(push, 1)", .code c%"struct U { char c; struct T t; };", .code [],
    .pragma c%" pack(pop)", .code c%"struct V { char c; int i; };"] := by
  decide +kernel

theorem splitP_apart : MacrosApart exSetup splitScope splitS1 c%"b.h" splitP := by
  have hr : ∀ n, ¬ LinesRead exSetup splitS1 c%"b.h" splitP .values n := by
    rintro n ⟨a, l, b, st, os, e, _, h⟩
    have hl : l ∈ ppLines splitP := by rw [e]; simp
    rw [splitP_lines] at hl
    simp only [List.mem_cons, List.not_mem_nil, or_false] at hl
    rcases hl with rfl | rfl | rfl | rfl | rfl | rfl <;> rcases h.2.1 with h | h <;> cases h
  have hd : ∀ k n, ¬ LinesDefine exSetup splitS1 c%"b.h" splitP k n := by
    rintro k n ⟨st, os, e, h | ⟨rfl, h⟩⟩
    · apply h
      have hq : silentP = true := by decide +kernel
      unfold silentP at hq
      rw [e] at hq
      simp only at hq
      unfold recorded
      cases hd : dget st.env.fileDefs (some (basename c%"b.h")) with
      | none => rfl
      | some ee =>
        rw [hd] at hq
        simp only [List.all_cons, List.all_nil, Bool.and_true, Bool.and_eq_true, List.isEmpty_iff] at hq
        obtain ⟨q1, q2, q3, q4, q5, q6, q7, q8, q9⟩ := hq
        show dget (ee k) n = none
        cases k <;> simp only [q1, q2, q3, q4, q5, q6, q7, q8, q9] <;> rfl
    · rw [splitP_lines] at h
      simp at h
  exact ⟨fun n h => absurd h (hr n), fun k n h => absurd h (hd k n), fun n h => absurd h (hd _ n), fun k n h => absurd h (hd k n)⟩

/-- The lines of the first part are kept. -/
def plainA : Bool :=
  match ppRun exSetup.sem 0 (PPState.init (setFile Store.empty (some c%"a.h"))) (splitBlock.texts.map classify) with
  | .ok r => decide (r.2.length = splitBlock.texts.length) && r.2.all fun o => decide ('\n' ∉ o.text)
  | .error _ => false

theorem splitA_plain : PlainLines exSetup Store.empty c%"a.h" splitBlock.texts := by
  intro st os e
  have hq : plainA = true := by decide +kernel
  unfold plainA at hq
  rw [e] at hq
  simp only [Bool.and_eq_true, decide_eq_true_eq, List.all_eq_true] at hq
  exact hq

/-- The hypotheses of C97 with pragmas hold for the example, and the packings are these in both cases. -/
theorem C97_pragma_example :
    IsSource splitA splitBlock.texts ∧ IsSource splitP splitLinesP ∧ IsSource splitAP (splitBlock.texts ++ splitLinesP) ∧
    MacrosApart exSetup splitScope splitS1 c%"b.h" splitP ∧ PlainLines exSetup Store.empty c%"a.h" splitBlock.texts ∧
    (∀ u, processFiles exSetup Store.empty [(c%"a.h", splitA), (c%"b.h", splitP)] = .ok u →
      ∃ u', resultOf exSetup Store.empty c%"a.h" splitAP = .ok u' ∧ ∀ k n, dget (u'.defs k) n = dget (u.defs k) n) ∧
    [c%"T", c%"U", c%"V"].map (filePack splitAP) = [some none, some (some 1), some none] ∧
    [c%"T", c%"U", c%"V"].map (filesPack [(c%"a.h", splitA), (c%"b.h", splitP)]) = [some none, some (some 1), some none] := by
  have hA : IsSource splitA splitBlock.texts := plain_source (by decide) (by decide) (by decide) (by decide) (by decide) rfl (by decide) (by decide)
  have hB : IsSource splitP splitLinesP := plain_source (by decide) (by decide) (by decide) (by decide) (by decide) rfl (by decide) (by decide)
  have hAB : IsSource splitAP (splitBlock.texts ++ splitLinesP) :=
    plain_source (by decide) (by decide) (by decide) (by decide) (by decide) rfl (by decide) (by decide)
  have hp : PyWords exSetup.py := fun _ _ _ _ => rfl
  have hw : FileWords exSetup.sem (splitBlock.trace (fileSem exSetup) (setFile Store.empty (some c%"a.h"))) splitWords := by
    refine .quiet _ _ _ _ rfl (.code _ _ splitWords _ [] ?_ .nil)
    exact words_of [] [([], c%"struct"), ([' '], c%"T"), ([' '], c%"{"), ([' '], c%"int"),
      ([' '], c%"z"), ([], c%";"), ([' '], c%"}"), ([], c%";")] rfl rfl (by decide)
  have hcov : Covers exFileGram splitScope (splitWords.map (⟨·, none⟩)) :=
    covers_of_check (by decide) (fun _ _ => C79_values rfl hp fun _ _ => trivial) (C79_values rfl hp fun _ _ => trivial)
  have hlA : splitBlock.texts.map classify = [.define c%"N" c%" 4", .code c%"struct T { int z; };"] := by decide +kernel
  have key := C97_pragma_partial exSetup hp (by decide) (fun _ _ _ _ _ => rfl) (s1 := splitS1) tablesOk_empty hA hB hAB splitBlock_ok hw
    (.cons _ _ _ _ [] (ex_T _ _ rfl) (.nil _)) hcov (by decide) (by rw [hlA]; intro l hl r e; subst e; simp at hl) splitA_plain
    (by rw [splitP_lines]; intro l r hl e; subst e; simp at hl) splitP_apart
  exact ⟨hA, hB, hAB, splitP_apart, splitA_plain, key.2, by decide +kernel, by decide +kernel⟩

/-- C97 fails if the second part begins with a pragma: in one file it packs the structure on the line in front of it, too. -/
theorem C97_counterexample_line :
    filePack c%"struct S { char c; int x; };\n#pragma pack(1)\nint i;" c%"S" = some (some 1) ∧
    filesPack [(c%"t.h", c%"struct S { char c; int x; };"), (c%"u.h", c%"#pragma pack(1)\nint i;")] c%"S" = some none :=
  ⟨by decide +kernel, by decide +kernel⟩

/-- C97 fails if the first part has lines that are dropped: in one file the packing begins too late. -/
theorem C97_counterexample_dropped :
    filePack c%"#pragma once\n#pragma region\n#pragma endregion\nint j;\n#pragma pack(1)\nstruct S { char c; int x; };\n\n#pragma pack()" c%"S" = some none ∧
    filesPack [(c%"t.h", c%"#pragma once\n#pragma region\n#pragma endregion\nint j;"), (c%"u.h", c%"#pragma pack(1)\nstruct S { char c; int x; };\n\n#pragma pack()")] c%"S" = some (some 1) :=
  ⟨by decide +kernel, by decide +kernel⟩

end Pyclib
