import Verif.Spec.Split
import Verif.Proof.Split
import Verif.Props.Relaid
import Verif.Props.Independent
/-! Theorems about files that are split into two (C97). -/
namespace Pyclib
open Spec

theorem joinC_outs (a b : List Out) (ha : a ≠ []) (hb : b ≠ []) :
    joinC '\n' ((a ++ b).map Out.text) = joinC '\n' (a.map Out.text) ++ '\n' :: joinC '\n' (b.map Out.text) := by
  have h := nlText_append a b
  rw [nlText_join (by simp [ha]), nlText_join ha, nlText_join hb] at h
  simpa using h

/-- The text that the preprocessor gives. -/
def outOf {E : Type} : Except PyErr (PPState E × List Out) → Except PyErr (PPState E × Str)
  | .error e => .error e
  | .ok r => .ok (r.1, joinC '\n' (r.2.map Out.text))

theorem preprocess_out {E : Type} (sem : PPSem E) (env : E) (text : Str) :
    preprocess sem env text = outOf (ppRun sem 0 (PPState.init env) ((splitOnC '\n' (joinLines text)).map classify)) := by
  unfold preprocess
  cases ppRun sem 0 (PPState.init env) ((splitOnC '\n' (joinLines text)).map classify) <;> rfl

/-- The texts of two files one after the other. -/
theorem parse_join {g : Gram} (hg : gramOk g = true) (hpk : g.pack = fun _ => none)
    (hj : ∀ t t', Respaced (fun _ => none) (fun _ => none) .free ';' t t' → g.junk t = g.junk t') {tail : Str} {s s' : St} {ts : List Tk}
    {oa ob : List Out} (hh : CHeader g s ts s') (hl : Lay ⟨tail, fun _ => none⟩ ' ' (joinC '\n' (oa.map Out.text)) ts)
    (ht : tail.all isWhite = true) (hC : ∀ u ∈ ts, u.w ≠ c%"\"C\"") :
    parseDefs g s (joinC '\n' ((oa ++ ob).map Out.text)) = parseDefs g s' (joinC '\n' (ob.map Out.text)) := by
  by_cases ha : oa = []
  · subst ha
    have h1 := parseDefs_split (t := joinC '\n' (ob.map Out.text)) hg hpk hj hh hl ht hC
    rw [List.nil_append, ← h1]
    exact C59_blanks_partial (c := none) hg hpk s hj (respP_strip (respaced_refl _ _ _ _ (Nat.lt_succ_self _)))
  · by_cases hb : ob = []
    · subst hb
      rw [List.append_nil, parseDefs_read hg hh (by rw [hpk]; exact hl) ht]
      exact (scan_end _ _ _ rfl).symm
    · rw [joinC_outs oa ob ha hb]
      exact parseDefs_split hg hpk hj hh hl ht hC

theorem lineReads_kind {w : Setup} {st : PPState St} {l : Line} {k : Kind} {n : Str} (h : LineReads w st l k n) : isMac k ∨ k = .values := by
  cases l with
  | code l => exact .inl h.2.1
  | pragma l => exact .inl h.2.1
  | dif r => exact .inl h.2.1
  | delif r => exact .inl h.2.2.1
  | define m r =>
    rcases h.2 with h | h | h
    · exact .inl h.1
    · exact .inl (.inr h.1)
    · exact .inr h.1
  | _ => exact h.elim

/-- C97: a file `AB` whose lines are those of a header `A` followed by those of any file `B` records what the two files record one after the
other, or raises the same error; provided that the macros of `B` have nothing to do with the declarations of `A` (`MacrosApart`), and that there
is no `#pragma` in `B` and neither `#pragma pack` nor `extern "C"` in `A`. -/
theorem C97_split_partial (w : Setup) (hp : PyWords w.py) (hg : gramOk w.castGram = true)
    (hj : ∀ t t', Respaced (fun _ => none) (fun _ => none) .free ';' t t' → w.junk t = w.junk t') {s s1 : St} (hs : TablesOk s)
    {path path2 A B AB : Str} {b : SBlock} {lb : List Str} {ws : List Str} {S : Scope} (hA : IsSource A b.texts) (hB : IsSource B lb)
    (hAB : IsSource AB (b.texts ++ lb)) (hb : b.Ok) (hw : FileWords w.sem (b.trace (fileSem w) (setFile s (some path))) ws)
    (hh : CHeader ⟨w.cfg, w.mods, w.ev, fun _ => none, w.junk⟩ (b.run (fileSem w) (setFile s (some path))).1 (ws.map (⟨·, none⟩)) s1)
    (hcov : Covers ⟨w.cfg, w.mods, w.ev, fun _ => none, w.junk⟩ S (ws.map (⟨·, none⟩))) (hC : c%"\"C\"" ∉ ws)
    (hpr : ∀ l ∈ ppLines B, ∀ r, l ≠ .pragma r) (hap : MacrosApart w S s1 path2 B) :
    (∀ e, processFiles w s [(path, A), (path2, B)] = .error e → resultOf w s path AB = .error e) ∧
    ∀ u, processFiles w s [(path, A), (path2, B)] = .ok u → ∃ u', resultOf w s path AB = .ok u' ∧ ∀ k n, dget (u'.defs k) n = dget (u.defs k) n := by
  have hs0 := tablesOk_setFile hs (some path)
  obtain ⟨st, oa, r1, henv, hpk, hf1, hf2⟩ := words_state w hs0 hb hw
  obtain ⟨outA, e1⟩ := C64_file_partial w hg hs (path := path) (text := A) ⟨b, _, hA, hb, .inl ⟨ws, hw, rfl⟩, hh⟩
  have hs1 := file_tablesOk w hg hs (path := path) (text := A) ⟨b, _, hA, hb, .inl ⟨ws, hw, rfl⟩, hh⟩
  obtain ⟨st', out, q1, _, tail, ht, hl⟩ := file_tokens w hs0 hA hb (.inl ⟨ws, hw, rfl⟩)
  have hq : st' = st ∧ out = joinC '\n' (oa.map Out.text) := by
    simp only [preprocess, source_lines hA, r1, Except.ok.injEq, Prod.mk.injEq] at q1
    exact ⟨q1.1.symm, q1.2.symm⟩
  obtain ⟨rfl, rfl⟩ := hq
  have hl : Lay ⟨tail, fun _ => none⟩ ' ' (joinC '\n' (oa.map Out.text)) (ws.map (⟨·, none⟩)) := by
    rw [hpk] at hl
    simpa [structPacking, packingAt, packingAtFrom] using hl
  -- the declarations of the first part
  rw [← henv] at hh
  have hmac : s1.defs .macros = st'.env.defs .macros ∧ s1.defs .fnmacros = st'.env.defs .fnmacros := by
    have := e1
    unfold processFile at this
    rw [q1] at this
    simp only at this
    have ha := adds_parseDefs (w.gram st'.packList (joinC '\n' (oa.map Out.text))) st'.env (joinC '\n' (oa.map Out.text))
    split at this
    · rename_i s2 e2
      cases this
      rw [e2] at ha
      obtain ⟨m1, m2, _⟩ := adds_macros ha
      exact ⟨m1, m2⟩
    · cases this
  have hm0 : MacOk st'.env := ⟨fun p hp => hs1.1.1 p (by rw [hmac.1]; exact hp), fun p hp => hs1.1.2 p (by rw [hmac.2]; exact hp)⟩
  obtain ⟨_, _, _, hk1, _⟩ := header_out hh hcov (t := st'.env) ⟨fun _ _ => rfl, fun _ _ _ _ => rfl⟩
  -- the lines of the second part
  have hagree : AgreeOn (LinesRead w s1 path2 B) (setFile s1 (some path2)) st'.env := by
    intro k n hr
    have hk : isMac k ∨ k = .values := by
      obtain ⟨_, _, _, _, _, _, _, hr⟩ := hr
      exact lineReads_kind hr
    rcases hk with (rfl | rfl) | rfl
    · show dget (s1.defs .macros) n = _
      rw [hmac.1]
    · show dget (s1.defs .fnmacros) n = _
      rw [hmac.2]
    · exact hk1 .values n (hap.reads n hr)
  have hstep := ppRun_same hp (U := fun n => .undef n ∈ ppLines B) (R := LinesRead w s1 path2 B) (ppLines B) 0
    (PPState.init (setFile s1 (some path2))) st'.env (setFile_macOk hs1.1 _) hm0 (fun n hn => hn)
    (fun a l b st os e1 e2 k n hk => ⟨a, l, b, st, os, e1, e2, hk⟩) hagree
  have hst : (PPState.init st'.env).withPk st' = st' := by
    obtain ⟨env, it, ih, ps, pk, pl⟩ := st'
    simp only at hf1 hf2
    subst hf1 hf2
    rfl
  have hrun := ppRun_pk w.sem st' (ppLines B) hpr 0 (0 + (b.texts.map classify).length) (PPState.init st'.env)
  rw [hst] at hrun
  have hlb : ppLines B = lb.map classify := by unfold ppLines; rw [source_lines hB]
  have e0 : (PPState.init (setFile s1 (some path2))).mapE (fun _ => st'.env) = PPState.init st'.env := rfl
  rw [e0] at hstep
  have hpk2 := fun a o => ppRun_packs w.sem hpr (i := 0) (S := PPState.init (setFile s1 (some path2))) (S1 := a) (os := o)
  have hdef : ∀ a o, ppRun w.sem 0 (PPState.init (setFile s1 (some path2))) (ppLines B) = .ok (a, o) → ∀ k n,
      FileDefines a.env path2 B k n → LinesDefine w s1 path2 B k n := fun a o h k n hd => ⟨a, o, h, hd⟩
  have eAB : preprocess w.sem (setFile s (some path)) (removeComments AB) =
      outOf (andThen (.ok (st', oa)) (fun x => ppRun w.sem (0 + (b.texts.map classify).length) x (ppLines B))) := by
    rw [← r1, hlb, ← ppRun_append, ← List.map_append, ← source_lines hAB]
    exact preprocess_out _ _ _
  have eB : preprocess w.sem (setFile s1 (some path2)) (removeComments B) =
      outOf (ppRun w.sem 0 (PPState.init (setFile s1 (some path2))) (ppLines B)) := preprocess_out _ _ _
  simp only [processFiles, e1]
  unfold resultOf processFile
  rw [eAB, eB]
  simp only [andThen_ok, hrun]
  revert hstep hpk2 hdef
  generalize ppRun w.sem 0 (PPState.init (setFile s1 (some path2))) (ppLines B) = x
  generalize ppRun w.sem 0 (PPState.init st'.env) (ppLines B) = y
  intro hstep hpk2 hdef
  cases hstep with
  | error e => exact ⟨fun e' h => by simpa [Except.map, outOf] using h, fun u h => by simp [outOf] at h⟩
  | ok a env o h2 h3 h4 =>
    have hp2 : a.packList = [(0, none)] := hpk2 a o rfl
    have hd := hdef a o rfl
    obtain ⟨ops, ho, hx1, hx2⟩ := h2
    rw [show (PPState.init (setFile s1 (some path2))).env = setFile s1 (some path2) from rfl] at hx1
    have untouched : ∀ k n, ¬ LinesDefine w s1 path2 B k n → ∀ t : St, dget ((runOps t ops).defs k) n = dget (t.defs k) n := by
      intro k n hn t
      refine runOps_untouched (fun h => hn (hd k n (.inr h))) ops (setFile s1 (some path2)) t ho ?_
      rw [← hx1]
      by_cases hc : recorded a.env (some (basename path2)) k n = none
      · exact hc
      · exact absurd (hd k n (.inl hc)) hn
    have hso : SameOn S st'.env env := by
      refine ⟨fun n hn => ?_, fun k _ n hn => ?_⟩
      · rw [hx2, untouched .values n (fun h => hap.vals n h hn)]
      · rw [hx2, untouched k n (fun h => hap.tags k n h hn)]
    obtain ⟨u1, c1, _, _, c4⟩ := header_out hh hcov hso
    obtain ⟨_, _, _, hk2, _⟩ := header_out c1 hcov (t := env) ⟨fun _ _ => rfl, fun _ _ _ _ => rfl⟩
    have hall : AgreeOn (fun _ _ => True) a.env u1 := by
      intro k n _
      by_cases hn : S.names n
      · have hu := untouched k n (fun h => hap.names k n h hn)
        have g1 : dget (a.env.defs k) n = dget (s1.defs k) n := by rw [hx1, hu]; rfl
        have g2 : dget (env.defs k) n = dget (st'.env.defs k) n := by rw [hx2, hu]
        rcases c4 k n with ⟨g3, g4⟩ | g3
        · rw [g1, g3, g4, g2]
        · rw [g1, g3]
      · rw [hk2 k n hn]
        have ha2 : AgreeOn (fun k' n' => k' = k ∧ n' = n) (setFile s1 (some path2)) st'.env := by
          rintro _ _ ⟨rfl, rfl⟩
          exact hk1 _ _ hn
        have := (show SameOps (fun n => .undef n ∈ ppLines B) (setFile s1 (some path2)) a.env st'.env env from ⟨ops, ho, hx1, hx2⟩).agree ha2
        exact this k n ⟨rfl, rfl⟩
    simp only [Except.map, outOf, PPState.mapE, PPState.withPk, hpk, hp2, gram_none]
    rw [parse_join (g := ⟨w.cfg, w.mods, w.ev, fun _ => none, w.junk⟩) hg rfl hj c1 hl ht (by
      intro u hu
      obtain ⟨x, hx, rfl⟩ := List.mem_map.1 hu
      rintro rfl
      exact hC hx)]
    have hne := noEmpty_of_ok hg
    obtain ⟨h6, h7⟩ := C85_parse (w := w) hp (fun h => hne.1 (by simp only [fundWords, baseTypes, List.mem_append]; exact .inr (.inr h))) hne.2 [(0, none)] (text := joinC '\n' (o.map Out.text)) (s := a.env) (t := u1)
      (fun k n _ => hall k n trivial)
    rw [gram_none] at h6 h7
    have h8 := h7.agree hall
    revert h6 h8
    clear h7
    generalize parseDefs (⟨w.cfg, w.mods, w.ev, fun _ => none, w.junk⟩ : Gram) a.env (joinC '\n' (o.map Out.text)) = p
    generalize parseDefs (⟨w.cfg, w.mods, w.ev, fun _ => none, w.junk⟩ : Gram) u1 (joinC '\n' (o.map Out.text)) = q
    obtain ⟨p1, p2⟩ := p
    obtain ⟨q1, q2⟩ := q
    intro h6 h8
    simp only at h6 h8
    subst h6
    cases q2 with
    | some e => exact ⟨fun e' h => by simpa using h, fun u h => by simp at h⟩
    | none =>
      refine ⟨fun e' h => by simp at h, fun u h => ⟨q1, rfl, fun k n => ?_⟩⟩
      simp only [Except.ok.injEq] at h
      rw [← h]
      exact (h8 k n trivial).symm

/-! ### Example -/

/-- A text without comments, quotation marks and continued lines. -/
theorem plain_source {t : Str} {ls : List Str} (h1 : codeOkB t = true) (h2 : hasPiece ['/', '\\', '\n'] t = false)
    (h3 : hasPiece ['*', '\\', '\n'] t = false) (h4 : hasPiece ['\\', '\n'] t = false) (h5 : t.getLast? ≠ some '/')
    (h6 : joinC '\n' ls = t) (h7 : ls ≠ []) (h8 : ∀ l ∈ ls, '\n' ∉ l) : IsSource t ls := by
  refine ⟨[.code t], [t], ?_, List.append_nil t, ?_, ?_, ?_, (List.append_nil t).symm, by simp [h6], h7, h8⟩
  · exact ⟨codeOk_of h1, fun h => absurd h h5, trivial⟩
  · exact ⟨trivial, trivial⟩
  · refine ⟨?_, ?_⟩
    · rintro a b c (rfl | rfl)
      · exact hasPiece_false (t := ['/', '\\', '\n']) a b h2
      · exact hasPiece_false (t := ['*', '\\', '\n']) a b h3
    · intro s hs
      simp at hs
  · intro p hp
    simp only [List.mem_cons, List.not_mem_nil, or_false] at hp
    rw [hp]
    exact noCont_of h4

/-- The first part: a macro and a structure. -/
def splitA : Str := c%"#define N 4\nstruct T { int z; };"

/-- The second part uses both, and takes the macro back. -/
def splitB : Str := c%"#ifdef N\nstruct T *p, a[N];\n#undef N\n#endif\nint N;"

/-- Both in one file. -/
def splitAB : Str := c%"#define N 4\nstruct T { int z; };\n#ifdef N\nstruct T *p, a[N];\n#undef N\n#endif\nint N;"

def splitBlock : SBlock :=
  .leaf c%"#define N 4" (.define c%"N" c%" 4") (.leaf c%"struct T { int z; };" (.code c%"struct T { int z; };") .nil)

def splitWords : List Str := [c%"struct", c%"T", c%"{", c%"int", c%"z", c%";", c%"}", c%";"]

def splitLinesB : List Str := [c%"#ifdef N", c%"struct T *p, a[N];", c%"#undef N", c%"#endif", c%"int N;"]

/-- What the first part uses and defines. -/
def splitScope : Scope := ⟨fun _ => True, (· ∈ [c%"T"]), (· ∈ [c%"T", c%"z", c%"struct T"])⟩

def splitS1 : St := (procStruct exSetup.ev (splitBlock.run (fileSem exSetup) (setFile Store.empty (some c%"a.h"))).1 false (some c%"T")
  [⟨[], c%"int", [dName c%"z"], none, none⟩] none).1

/-- The tables after reading the files. -/
def filesGet (fs : List (Str × Str)) (k : Kind) (n : Str) : Option (Option DefVal) :=
  match processFiles exSetup Store.empty fs with
  | .ok s => some (dget (s.defs k) n)
  | .error _ => none

/-- The lines of the second part record nothing. -/
def splitSilent : Bool :=
  match ppRun exSetup.sem 0 (PPState.init (setFile splitS1 (some c%"b.h"))) (ppLines splitB) with
  | .ok r => match dget r.1.env.fileDefs (some (basename c%"b.h")) with
    | some e => [Kind.types, .variables, .fnmacros, .macros, .structs, .unions, .enums, .functions, .values].all fun k => (e k).isEmpty
    | none => true
  | .error _ => false

theorem splitBlock_ok : splitBlock.Ok := by
  have b0 : Blank [] := by simp [Blank]
  have b1 : Blank [' '] := by simp [Blank]
  exact ⟨.define _ c%" N 4" _ _ ⟨[], [], b0, b0, rfl, by simp <;> decide⟩
    ⟨[' '], by simp, b1, ⟨'N', [], rfl, by decide, by simp⟩, rfl, by simp <;> decide⟩, code_leaf (by decide), trivial⟩

theorem splitB_lines : ppLines splitB = [.dif c%"defined  N", .code c%"struct T *p, a[N];", .undef c%"N", .dendif, .code c%"int N;"] := by
  decide +kernel

theorem split_apart : MacrosApart exSetup splitScope splitS1 c%"b.h" splitB := by
  have hr : ∀ n, ¬ LinesRead exSetup splitS1 c%"b.h" splitB .values n := by
    rintro n ⟨a, l, b, st, os, e, _, h⟩
    have hl : l ∈ ppLines splitB := by rw [e]; simp
    rw [splitB_lines] at hl
    simp only [List.mem_cons, List.not_mem_nil, or_false] at hl
    rcases hl with rfl | rfl | rfl | rfl | rfl
    · rcases h.2.1 with h | h <;> cases h
    · rcases h.2.1 with h | h <;> cases h
    · exact h
    · exact h
    · rcases h.2.1 with h | h <;> cases h
  have hd : ∀ k n, LinesDefine exSetup splitS1 c%"b.h" splitB k n → k = .macros ∧ n = c%"N" := by
    rintro k n ⟨st, os, e, h | ⟨rfl, h⟩⟩
    · exfalso
      apply h
      have hq : splitSilent = true := by decide +kernel
      unfold splitSilent at hq
      rw [e] at hq
      simp only at hq
      unfold recorded
      cases hd : dget st.env.fileDefs (some (basename c%"b.h")) with
      | none => rfl
      | some ee =>
        rw [hd] at hq
        simp only [List.all_cons, List.all_nil, Bool.and_true, Bool.and_eq_true, List.isEmpty_iff] at hq
        obtain ⟨q1, q2, q3, q4, q5, q6, q7, q8, q9⟩ := hq
        show dget (ee k) n = none
        cases k <;> simp only [q1, q2, q3, q4, q5, q6, q7, q8, q9] <;> rfl
    · rw [splitB_lines] at h
      simp at h
      exact ⟨rfl, h⟩
  refine ⟨fun n h => absurd h (hr n), fun k n h => ?_, fun n h => ?_, fun k n h => ?_⟩
  · obtain ⟨_, rfl⟩ := hd k n h
    show ¬ (_ ∈ [_, _, _])
    decide
  · cases (hd _ n h).1
  · obtain ⟨_, rfl⟩ := hd k n h
    show ¬ (_ ∈ [_])
    decide

/-- The hypotheses of C97 hold for the example, and this is what is recorded in both cases. -/
theorem C97_example :
    IsSource splitA splitBlock.texts ∧ IsSource splitB splitLinesB ∧ IsSource splitAB (splitBlock.texts ++ splitLinesB) ∧
    MacrosApart exSetup splitScope splitS1 c%"b.h" splitB ∧
    (∀ u, processFiles exSetup Store.empty [(c%"a.h", splitA), (c%"b.h", splitB)] = .ok u →
      ∃ u', resultOf exSetup Store.empty c%"a.h" splitAB = .ok u' ∧ ∀ k n, dget (u'.defs k) n = dget (u.defs k) n) ∧
    ([(Kind.structs, c%"T"), (.variables, c%"p"), (.variables, c%"a"), (.variables, c%"N"), (.macros, c%"N")].map fun x =>
      (filesGet [(c%"a.h", splitA), (c%"b.h", splitB)] x.1 x.2).map Option.isSome) = [some true, some true, some true, some true, some false] := by
  have hA : IsSource splitA splitBlock.texts := plain_source (by decide) (by decide) (by decide) (by decide) (by decide) rfl (by decide) (by decide)
  have hB : IsSource splitB splitLinesB := plain_source (by decide) (by decide) (by decide) (by decide) (by decide) rfl (by decide) (by decide)
  have hAB : IsSource splitAB (splitBlock.texts ++ splitLinesB) :=
    plain_source (by decide) (by decide) (by decide) (by decide) (by decide) rfl (by decide) (by decide)
  have hp : PyWords exSetup.py := fun _ _ _ _ => rfl
  have hw : FileWords exSetup.sem (splitBlock.trace (fileSem exSetup) (setFile Store.empty (some c%"a.h"))) splitWords := by
    refine .quiet _ _ _ _ rfl (.code _ _ splitWords _ [] ?_ .nil)
    exact words_of [] [([], c%"struct"), ([' '], c%"T"), ([' '], c%"{"), ([' '], c%"int"),
      ([' '], c%"z"), ([], c%";"), ([' '], c%"}"), ([], c%";")] rfl rfl (by decide)
  have hcov : Covers exFileGram splitScope (splitWords.map (⟨·, none⟩)) :=
    covers_of_check (by decide) (fun _ _ => C79_values rfl hp fun _ _ => trivial) (C79_values rfl hp fun _ _ => trivial)
  have key := C97_split_partial exSetup hp (by decide) (fun _ _ _ => rfl) (s1 := splitS1) tablesOk_empty hA hB hAB splitBlock_ok hw
    (.cons _ _ _ _ [] (ex_T _ _ rfl) (.nil _)) hcov (by decide) (by rw [splitB_lines]; intro l hl r e; subst e; simp at hl) split_apart
  exact ⟨hA, hB, hAB, split_apart, key.2, by decide +kernel⟩

/-- The value that is found is the number 3. -/
def hasValue : Option (Option DefVal) → Bool
  | some (some (.value (.int 3))) => true
  | _ => false

/-- C97 fails if a macro of the second part uses a constant of the first: the value of the macro is known only if the files are separate. -/
theorem C97_counterexample_value :
    hasValue (fileGet c%"enum { X = 3 };\n#define Y X" .values c%"Y") = false ∧
    hasValue (filesGet [(c%"t.h", c%"enum { X = 3 };"), (c%"u.h", c%"#define Y X")] .values c%"Y") = true := ⟨by decide +kernel, by decide +kernel⟩

/-- The packing recorded for a structure. -/
def filesPack (fs : List (Str × Str)) (n : Str) : Option (Option Nat) :=
  match filesGet fs .structs n with
  | some (some (.compound _ p)) => some p
  | _ => none

/-- C97 fails for a packing that is still in force at the end of the first part: it is forgotten with the next file. -/
theorem C97_counterexample_pack :
    filePack c%"#pragma pack(1)\nint i;\nstruct S { char c; int x; };" c%"S" = some (some 1) ∧
    filesPack [(c%"t.h", c%"#pragma pack(1)\nint i;"), (c%"u.h", c%"struct S { char c; int x; };")] c%"S" = some none := ⟨by decide +kernel, by decide +kernel⟩

end Pyclib
