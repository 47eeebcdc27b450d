import Verif.Proof.RelaidPack
import Verif.Props.Relaid
/-! Theorems about files with `#pragma pack` that are laid out differently (C92). -/
namespace Pyclib
open Spec

/-- No line is dropped: there is no pragma but `#pragma pack`, and no `#define`, `#undef` or `#pragma` in a part that is skipped. -/
def KeepsLines {E : Type} (sem : PPSem E) (env : E) (lines : List Str) : Prop :=
  ∀ S os, ppRun sem 0 (PPState.init env) (lines.map classify) = .ok (S, os) → os.length = lines.length

theorem pkFun_out (os : List Out) (packs : List (Nat × Option Nat)) :
    PkFun (nlText os) packs (fun n => structPacking packs (joinC '\n' (os.map Out.text)) ((joinC '\n' (os.map Out.text)).length - n)) := by
  cases os with
  | nil =>
    intro a u e ha
    have : a ++ u = [] := e.symm
    simp at this
    exact absurd this.1 ha
  | cons o os =>
    rw [nlText_join (by simp)]
    exact pkFun_struct _ _

/-- C92 with `#pragma pack`: a file with the same directives and the same text, but for comments, continued lines and white space, leads to the
same tables or to the same error, and so to the same packing of each structure.  The text in front of a pragma ends with an empty line
(`C64_counterexample_line`), and no line is dropped (`C64_counterexample_skipped`). -/
theorem C92_pack_partial (w : Setup) (hg : gramOk w.castGram = true) {P : Store DefVal → Prop} {s : Store DefVal} {path text text' : Str}
    (hP : P (setFile s (some path))) (hj : ∀ f f' t t', Respaced f f' .free ';' t t' → w.junk t = w.junk t') (ps : List Part)
    (h : IsSource text (ps.flatMap Part.lines)) (h' : IsSource text' (ps.flatMap Part.lines')) (hps : PackedOk w.sem P ps)
    (hk : KeepsLines w.sem (setFile s (some path)) (ps.flatMap Part.lines)) : resultOf w s path text = resultOf w s path text' := by
  have := packed_run (sem := w.sem) ps hps 0 0 (PPState.init (setFile s (some path))) [(0, none)] hP ⟨fun _ => rfl, trivial⟩
  have e0 : (PPState.init (setFile s (some path))).withPacks [(0, none)] = PPState.init (setFile s (some path)) := rfl
  rw [e0] at this
  unfold resultOf processFile
  simp only [preprocess, source_lines h, source_lines h']
  cases hr : ppRun w.sem 0 (PPState.init (setFile s (some path))) ((ps.flatMap Part.lines).map classify) with
  | error e =>
    cases hr' : ppRun w.sem 0 (PPState.init (setFile s (some path))) ((ps.flatMap Part.lines').map classify) with
    | error e' =>
      simp only [hr, hr', PackRun] at this
      rw [this]
    | ok r' => simp only [hr, hr', PackRun] at this
  | ok r =>
    cases hr' : ppRun w.sem 0 (PPState.init (setFile s (some path))) ((ps.flatMap Part.lines').map classify) with
    | error e' => simp only [hr, hr', PackRun] at this
    | ok r' =>
      simp only [hr, hr', PackRun] at this
      obtain ⟨m, m', a1, a2, _, _, _, a6⟩ := this
      have hF := respP_out (a6 (hk r.1 r.2 hr) (by simp [PPState.init]) (by simp) rfl (nlText r.2) (nlText r'.2) [] [] _ _ rfl rfl rfl rfl
        (pkFun_out r.2 _) (pkFun_out r'.2 _))
      have e1 : r'.1.env = r.1.env := by rw [a2]; rfl
      have e2 : r'.1.packList = [(0, none)] ++ m' := by rw [a2]; rfl
      have := C59_texts_partial (g := ⟨w.cfg, w.mods, w.ev, fun _ => none, w.junk⟩) hg r.1.env (hj _ _) hF
      simp only [a1, e1, e2]
      have g : ∀ (packs : List (Nat × Option Nat)) (out : Str),
          w.gram packs out = (⟨w.cfg, w.mods, w.ev, fun _ => none, w.junk⟩ : Gram).withPack (fun n => structPacking packs out (out.length - n)) := fun _ _ => rfl
      rw [g, g, this]
      split <;> rfl

/-! ### An example -/

def packA : Str := c%"#pragma pack(push, 1)\nstruct S{char c;int i;};\n\n#pragma pack(pop)\nstruct T{char c;int i;};"

def packB : Str :=
  c%"#pragma pack(push, 1)\nstruct S\n{\n char c; /* first */\n int i;\n};\n\n\n#pragma pack(pop)\n// natural\nstruct T { char c;\n int i; };"

def packParts : List Part :=
  [.dir c%"#pragma pack(push, 1)",
   .code [c%"struct S{char c;int i;};", []] [c%"struct S", c%"{", c%" char c; ", c%" int i;", c%"};", [], []],
   .dir c%"#pragma pack(pop)",
   .code [c%"struct T{char c;int i;};"] [[], c%"struct T { char c;", c%" int i; };"]]

/-- There are no macros. -/
abbrev noMacros : Store DefVal → Prop := MacroProp (Among fun _ => False)

theorem noMacros_expand (w : Setup) {e : Store DefVal} (he : noMacros e) (l : Str) : w.sem.expand e l = l :=
  free_expand w he ⟨fun _ _ h => h, .inr fun _ _ h => h⟩

theorem packParts_ok : PackedOk exSetup.sem noMacros packParts := by
  have b0 : Blank [] := by simp [Blank]
  have hm : ∀ e, noMacros e → ∀ l : List Str, l.map (exSetup.sem.expand e) = l := fun e he l =>
    (List.map_congr_left fun x _ => noMacros_expand exSetup he x).trans (List.map_id l)
  have st : ∀ r, Starts ('s' :: r) := by
    intro r a c r' e ha hc
    cases a with
    | nil => simp at e; obtain ⟨rfl, _⟩ := e; decide
    | cons d a =>
      simp at e
      obtain ⟨rfl, _⟩ := e
      simp at ha
      exact absurd ha.1 (by decide)
  have noHash : ∀ ls : List Str, (∀ l ∈ ls, '#' ∉ l) → ∀ l ∈ ls, ∀ a r, l = a ++ '#' :: r → ∃ c ∈ a, isSpaceC c = false := by
    intro ls h l hl a r e
    have := h l hl
    rw [e] at this
    simp at this
  refine ⟨.inr ⟨c%" pack(push, 1)", [], [], b0, b0, rfl, by decide⟩, ⟨by simp, by simp, noHash _ (by decide), fun e he => ?_⟩, ?_, ?_,
    .inr ⟨c%" pack(pop)", [], [], b0, b0, rfl, by decide⟩, ⟨by simp, by simp, noHash _ (by decide), fun e he => ?_⟩, ?_, (fun h => h.elim), trivial⟩
  · rw [hm e he, hm e he]
    exact ⟨respB_sound 200 _ _ _ _ (by decide +kernel), st _, by decide +kernel, by decide +kernel⟩
  · intro e he l hl
    rw [noMacros_expand exSetup he]
    exact (by decide : ∀ l ∈ _, '\n' ∉ l) l hl
  · intro _
    constructor <;>
    · intro l hl e he
      rw [noMacros_expand exSetup he]
      simp at hl
      subst hl
      rfl
  · rw [hm e he, hm e he]
    exact ⟨respB_sound 200 _ _ _ _ (by decide +kernel), st _, by decide +kernel, by decide +kernel⟩
  · intro e he l hl
    rw [noMacros_expand exSetup he]
    exact (by decide : ∀ l ∈ _, '\n' ∉ l) l hl

theorem packA_source : IsSource packA (packParts.flatMap Part.lines) := by
  refine ⟨[.code packA], [packA], ?_, rfl, ?_, ?_, ?_, rfl, rfl, by decide, by decide⟩
  · exact ⟨codeOk_of (by decide), fun h => absurd h (by decide), trivial⟩
  · exact ⟨trivial, trivial⟩
  · refine ⟨?_, ?_⟩
    · rintro a b c (rfl | rfl)
      · exact hasPiece_false (t := ['/', '\\', '\n']) a b (by decide)
      · exact hasPiece_false (t := ['*', '\\', '\n']) a b (by decide)
    · intro s hs
      simp at hs
  · intro p hp
    simp only [List.mem_cons, List.not_mem_nil, or_false] at hp
    rw [hp]
    exact noCont_of (by decide)

theorem packB_source : IsSource packB (packParts.flatMap Part.lines') := by
  refine ⟨[.code c%"#pragma pack(push, 1)\nstruct S\n{\n char c; ", .block c%" first ", .code c%"\n int i;\n};\n\n\n#pragma pack(pop)\n",
    .line c%" natural", .code c%"\nstruct T { char c;\n int i; };"],
    [c%"#pragma pack(push, 1)\nstruct S\n{\n char c; \n int i;\n};\n\n\n#pragma pack(pop)\n\nstruct T { char c;\n int i; };"],
    ?_, rfl, ?_, ?_, ?_, rfl, rfl, by decide, by decide⟩
  · refine ⟨codeOk_of (by decide), fun h => absurd h (by decide), ?_, trivial, codeOk_of (by decide), fun h => absurd h (by decide),
      by simp [Seg.Ok], ?_, codeOk_of (by decide), fun h => absurd h (by decide), trivial⟩
    · intro a b
      exact hasPiece_false (t := ['*', '/']) a b (by decide)
    · intro c hc
      simpa [Seg.text] using hc.symm
  · exact ⟨trivial, .inl rfl, trivial, .inl rfl, trivial, trivial⟩
  · refine ⟨?_, ?_⟩
    · rintro a b c (rfl | rfl)
      · exact hasPiece_false (t := ['/', '\\', '\n']) a b (by decide)
      · exact hasPiece_false (t := ['*', '\\', '\n']) a b (by decide)
    · intro s hs
      simp at hs
      rw [hs]
      decide
  · intro p hp
    simp only [List.mem_cons, List.not_mem_nil, or_false] at hp
    rw [hp]
    exact noCont_of (by decide)

/-- The number of lines after the preprocessor. -/
def linesOut {E : Type} (sem : PPSem E) (env : E) (lines : List Str) : Option Nat :=
  match ppRun sem 0 (PPState.init env) (lines.map classify) with
  | .error _ => none
  | .ok r => some r.2.length

/-- Non-vacuity: two layouts of a packed and of an unpacked structure. -/
theorem C92_pack_example : noMacros (setFile Store.empty (some c%"t.h")) ∧ PackedOk exSetup.sem noMacros packParts ∧
    IsSource packA (packParts.flatMap Part.lines) ∧ IsSource packB (packParts.flatMap Part.lines') ∧
    KeepsLines exSetup.sem (setFile Store.empty (some c%"t.h")) (packParts.flatMap Part.lines) ∧
    resultOf exSetup Store.empty c%"t.h" packA = resultOf exSetup Store.empty c%"t.h" packB ∧
    filePack packA c%"S" = some (some 1) ∧ filePack packB c%"S" = some (some 1) ∧
    filePack packA c%"T" = some none ∧ filePack packB c%"T" = some none := by
  have h1 : noMacros (setFile Store.empty (some c%"t.h")) := ⟨⟨(fun p hp => nomatch hp), (fun p hp => nomatch hp)⟩, fun x _ => ⟨rfl, rfl⟩⟩
  have h2 : KeepsLines exSetup.sem (setFile Store.empty (some c%"t.h")) (packParts.flatMap Part.lines) := by
    intro S os h
    have h3 : linesOut exSetup.sem (setFile Store.empty (some c%"t.h")) (packParts.flatMap Part.lines) = some 5 := by decide +kernel
    unfold linesOut at h3
    rw [h] at h3
    simp only [Option.some.injEq] at h3
    exact h3
  exact ⟨h1, packParts_ok, packA_source, packB_source, h2,
    C92_pack_partial exSetup (by decide) h1 (fun _ _ _ _ _ => rfl) packParts packA_source packB_source packParts_ok h2,
    by decide +kernel, by decide +kernel, by decide +kernel, by decide +kernel⟩

end Pyclib
