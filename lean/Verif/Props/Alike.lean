import Verif.Spec.Alike
import Verif.Props.Selected
/-! Theorems about conditionals written in different ways (C100). -/
namespace Pyclib
open Spec

/-- A condition on defined names has the value that C gives it. -/
theorem means_holds (w : Setup) {s : St} (ht : TablesOk s) {c : Cond} {e : CE} (h : c.Means e) :
    c.holds (fileSem w) s = true ↔ e.true ((fileSem w).defd s) := by
  cases h with
  | ifdef x f => simp [Cond.holds, CE.true, CE.value]
  | ifndef x f => simp [Cond.holds, CE.true, CE.value]
  | expr _ l k hf hgr hid hl =>
    have hn := ht.2
    have := C30_agrees_partial w.orc w.pyo (menvOf s) e hf hgr l k hl
      (fun n => ⟨C30_numbers _ _ hn.1 n, C30_numbers _ _ hn.2 n⟩) (fun _ => none) (by simp [hid])
    have e1 : Cond.holds (fileSem w) s (.expr (layout l ++ blanks k)) =
        (match condE w.orc w.pyo (menvOf s) (layout l ++ blanks k) with | .ok b => b | .error _ => false) := rfl
    rw [e1, this]
    simp [CE.true, fileSem]

theorem condEq_holds (w : Setup) {s : St} (ht : TablesOk s) {c c' : Cond} (h : CondEq c c') :
    c.holds (fileSem w) s = c'.holds (fileSem w) s := by
  rcases h with rfl | ⟨e, e', h1, h2, h3⟩
  · rfl
  · rw [Bool.eq_iff_iff, means_holds w ht h1, means_holds w ht h2]
    exact h3 _

theorem condOpp_holds (w : Setup) {s : St} (ht : TablesOk s) {c c' : Cond} (h : CondOpp c c') :
    c.holds (fileSem w) s = !c'.holds (fileSem w) s := by
  obtain ⟨e, e', h1, h2, h3⟩ := h
  have := h3 ((fileSem w).defd s)
  rw [← means_holds w ht h1, ← means_holds w ht h2] at this
  cases h : c.holds (fileSem w) s <;> cases h' : c'.holds (fileSem w) s <;> simp [h, h'] at this ⊢

theorem condAnd_holds (w : Setup) {s : St} (ht : TablesOk s) {c1 c2 c : Cond} (h : CondAnd c1 c2 c) :
    c.holds (fileSem w) s = (c1.holds (fileSem w) s && c2.holds (fileSem w) s) := by
  obtain ⟨e1, e2, e, h1, h2, h, h3⟩ := h
  rw [Bool.eq_iff_iff, Bool.and_eq_true, means_holds w ht h1, means_holds w ht h2, means_holds w ht h]
  exact h3 _

theorem run_ok (w : Setup) {b : SBlock} (hb : b.Ok) {s : St} (ht : TablesOk s) : TablesOk (b.run (fileSem w) s).1 :=
  (sblock_run (P := TablesOk) (fun env t c => file_cond w env t c) (fun env t l => file_line w env t l) b hb s ht).2

theorem crun_ok (w : Setup) {c : SChain} (hc : c.Ok) {s : St} (ht : TablesOk s) : TablesOk (c.run (fileSem w) s).1 :=
  (schain_run (P := TablesOk) (fun env t c => file_cond w env t c) (fun env t l => file_line w env t l) c hc s ht).2

mutual
/-- The same lines are selected. -/
theorem alike_run (w : Setup) : ∀ {b b' : SBlock}, BlockAlike b b' → b.Ok → ∀ {s : St}, TablesOk s → b.run (fileSem w) s = b'.run (fileSem w) s
  | _, _, .nil, _, _, _ => rfl
  | _, _, .leaf t t' l rest rest' h, hb, s, ht => by
    simp only [SBlock.run]
    rw [alike_run w h hb.2 (file_line w s t l ht hb.1)]
  | _, _, .cond t t' c c' b b' k k' rest rest' hc h1 h2 h3, hb, s, ht => by
    obtain ⟨_, hb1, hb2, hb3⟩ := hb
    have e1 := alike_run w h1 hb1 ht
    have e2 := calike_run w h2 hb2 ht
    simp only [SBlock.run, condEq_holds w ht hc]
    split
    · rw [← e1, alike_run w h3 hb3 (run_ok w hb1 ht)]
    · rw [← e2, alike_run w h3 hb3 (crun_ok w hb2 ht)]
  | _, _, .swap t t' t1 t1' t2 t2' c c' a a' b b' rest rest' hc h1 h2 h3, hb, s, ht => by
    obtain ⟨_, hb1, ⟨_, hb2, _⟩, hb3⟩ := hb
    have e1 := alike_run w h1 hb1 ht
    have e2 := alike_run w h2 hb2 ht
    simp only [SBlock.run, SChain.run, condOpp_holds w ht hc]
    cases c'.holds (fileSem w) s
    · simp only [Bool.not_false, if_true, Bool.false_eq_true, if_false]
      rw [← e1, alike_run w h3 hb3 (run_ok w hb1 ht)]
    · simp only [Bool.not_true, if_true, Bool.false_eq_true, if_false]
      rw [← e2, alike_run w h3 hb3 (run_ok w hb2 ht)]
  | _, _, .both t1 t2 t3 t4 t t' c1 c2 c b b' rest rest' hc h1 h2, hb, s, ht => by
    obtain ⟨_, ⟨_, hb1, _, _⟩, _, hb3⟩ := hb
    have e1 := alike_run w h1 hb1 ht
    simp only [SBlock.run, SChain.run, condAnd_holds w ht hc]
    cases c1.holds (fileSem w) s
    · simp only [Bool.false_and, Bool.false_eq_true, if_false]
      rw [alike_run w h2 hb3 ht]
    · cases c2.holds (fileSem w) s
      · simp only [Bool.and_false, Bool.false_eq_true, if_false, if_true, List.append_nil]
        rw [alike_run w h2 hb3 ht]
      · simp only [Bool.and_true, if_true, List.append_nil]
        rw [← e1, alike_run w h2 hb3 (run_ok w hb1 ht)]
theorem calike_run (w : Setup) : ∀ {k k' : SChain}, ChainAlike k k' → k.Ok → ∀ {s : St}, TablesOk s → k.run (fileSem w) s = k'.run (fileSem w) s
  | _, _, .endif _ _, _, _, _ => rfl
  | _, _, .els t t' t1 t1' b b' h, hk, s, ht => alike_run w h hk.2.1 ht
  | _, _, .elif t t' e e' b b' k k' hc h1 h2, hk, s, ht => by
    have e0 : (fileSem w).cond s e = (fileSem w).cond s e' := condEq_holds w ht hc
    simp only [SChain.run]
    rw [e0, alike_run w h1 hk.2.1 ht, calike_run w h2 hk.2.2 ht]
  | _, _, .split t e t1 t2 t3 c b b' k k' hc h1 h2, hk, s, ht => by
    have e0 : (fileSem w).cond s e = c.holds (fileSem w) s := condEq_holds w ht hc
    simp only [SChain.run, SBlock.run, List.append_nil]
    rw [e0, alike_run w h1 hk.2.1 ht, calike_run w h2 hk.2.2 ht]
  | _, _, .empty _ _ _, _, _, _ => rfl
end

/-- C100: conditionals may be written in another way: `#ifdef` or `#if defined`, `#elif` or `#if` within `#else`, the branches exchanged with
the opposite condition, equivalent conditions on what is defined, two conditionals in one. -/
theorem C100_alike_partial (w : Setup) (hg : gramOk w.castGram = true)
    (hj : ∀ t t', Respaced (fun _ => none) (fun _ => none) .free ';' t t' → w.junk t = w.junk t') {s : St} (ht : TablesOk s)
    {path text text' : Str} {b b' : SBlock} (hb : b.Ok) (hb' : b'.Ok) (h : IsSource text b.texts) (h' : IsSource text' b'.texts)
    (ha : BlockAlike b b')
    (hpr : ∀ x ∈ (b.run (fileSem w) (setFile s (some path))).2, ∀ r, x.2 ≠ .pragma r)
    (hloose : ∀ x ∈ (b.run (fileSem w) (setFile s (some path))).2, ∀ t, x.2 = .code t →
      Starts (w.sem.expand x.1 t) ∧ (w.sem.expand x.1 t).getLast? ≠ some '\\') :
    resultOf w s path text = resultOf w s path text' :=
  C99_selected_partial w hg hj ht hb hb' h h' (by rw [alike_run w ha hb (tablesOk_setFile ht (some path))]) hpr hloose

/-! ### Example -/

def formA : SBlock :=
  .leaf c%"#define N 4" (.define c%"N" c%" 4")
    (.cond c%"#ifdef N" (.ifdef c%"N") (.leaf c%"struct T { int z; };" (.code c%"struct T { int z; };") .nil)
      (.els c%"#else" (.leaf c%"int q;" (.code c%"int q;") .nil) c%"#endif")
      (.cond c%"#if defined(M)" (.expr c%" defined(M)") (.leaf c%"int m;" (.code c%"int m;") .nil)
        (.elif c%"#elif defined( N)" c%" defined( N)" (.leaf c%"struct T a[N];" (.code c%"struct T a[N];") .nil) (.endif c%"#endif")) .nil))

def formB : SBlock :=
  .leaf c%"#define N 4" (.define c%"N" c%" 4")
    (.cond c%"#if !defined(N)" (.expr c%" !defined(N)") (.leaf c%"int q;" (.code c%"int q;") .nil)
      (.els c%"#else" (.leaf c%"struct T { int z; };" (.code c%"struct T { int z; };") .nil) c%"#endif")
      (.cond c%"#ifdef M" (.ifdef c%"M") (.leaf c%"int m;" (.code c%"int m;") .nil)
        (.els c%"#else" (.cond c%"#ifdef N" (.ifdef c%"N") (.leaf c%"struct T a[N];" (.code c%"struct T a[N];") .nil) (.endif c%"#endif") .nil)
          c%"#endif") .nil))

def formAText : Str :=
  c%"#define N 4\n#ifdef N\nstruct T { int z; };\n#else\nint q;\n#endif\n#if defined(M)\nint m;\n#elif defined( N)\nstruct T a[N];\n#endif"
def formBText : Str :=
  c%"#define N 4\n#if !defined(N)\nint q;\n#else\nstruct T { int z; };\n#endif\n#ifdef M\nint m;\n#else\n#ifdef N\nstruct T a[N];\n#endif\n#endif"

theorem formA_ok : formA.Ok := by
  have b0 : Blank [] := by simp [Blank]
  have b1 : Blank [' '] := by simp [Blank]
  exact ⟨.define _ c%" N 4" _ _ ⟨[], [], b0, b0, rfl, by simp <;> decide⟩ ⟨[' '], by simp, b1, ⟨'N', [], rfl, by decide, by simp⟩, rfl, by simp <;> decide⟩,
    .ifdef _ c%" N" c%"N" [] ⟨[], [], b0, b0, rfl, by simp <;> decide⟩ ⟨[' '], by simp, b1, ⟨'N', [], rfl, by decide, by simp⟩, rfl, by simp⟩ b0,
    ⟨code_leaf (by decide), trivial⟩,
    ⟨⟨[], [], [], b0, b0, rfl, by simp⟩, ⟨code_leaf (by decide), trivial⟩, [], [], [], b0, b0, rfl, by simp⟩,
    .expr _ _ ⟨[], [], b0, b0, rfl, by simp <;> decide⟩, ⟨code_leaf (by decide), trivial⟩,
    ⟨⟨[], [], b0, b0, rfl, by simp <;> decide⟩, ⟨code_leaf (by decide), trivial⟩, [], [], [], b0, b0, rfl, by simp⟩, trivial⟩

theorem formB_ok : formB.Ok := by
  have b0 : Blank [] := by simp [Blank]
  have b1 : Blank [' '] := by simp [Blank]
  exact ⟨.define _ c%" N 4" _ _ ⟨[], [], b0, b0, rfl, by simp <;> decide⟩ ⟨[' '], by simp, b1, ⟨'N', [], rfl, by decide, by simp⟩, rfl, by simp <;> decide⟩,
    .expr _ _ ⟨[], [], b0, b0, rfl, by simp <;> decide⟩, ⟨code_leaf (by decide), trivial⟩,
    ⟨⟨[], [], [], b0, b0, rfl, by simp⟩, ⟨code_leaf (by decide), trivial⟩, [], [], [], b0, b0, rfl, by simp⟩,
    .ifdef _ c%" M" c%"M" [] ⟨[], [], b0, b0, rfl, by simp <;> decide⟩ ⟨[' '], by simp, b1, ⟨'M', [], rfl, by decide, by simp⟩, rfl, by simp⟩ b0,
    ⟨code_leaf (by decide), trivial⟩,
    ⟨⟨[], [], [], b0, b0, rfl, by simp⟩,
      ⟨.ifdef _ c%" N" c%"N" [] ⟨[], [], b0, b0, rfl, by simp <;> decide⟩ ⟨[' '], by simp, b1, ⟨'N', [], rfl, by decide, by simp⟩, rfl, by simp⟩ b0,
        ⟨code_leaf (by decide), trivial⟩, ⟨[], [], [], b0, b0, rfl, by simp⟩, trivial⟩,
      [], [], [], b0, b0, rfl, by simp⟩, trivial⟩

theorem means_defd {x : Str} (hx : IsIdent x) (i j k : Nat) {r : Str} (h : r = ' ' :: (CTok.defd x (.paren i j k)).text) :
    Cond.Means (.expr r) (.defd x (.paren i j k)) := by
  have := Cond.Means.expr (.defd x (.paren i j k)) [(1, .defd x (.paren i j k))] 0 trivial hx rfl rfl
  rw [show layout [(1, CTok.defd x (.paren i j k))] ++ blanks 0 = r by rw [h]; simp [layout, blanks]] at this
  exact this

theorem forms_alike : BlockAlike formA formB := by
  have hN : IsIdent c%"N" := ⟨'N', [], rfl, by decide, by simp⟩
  have hM : IsIdent c%"M" := ⟨'M', [], rfl, by decide, by simp⟩
  have hneg : Cond.Means (.expr c%" !defined(N)") (.neg (.defd c%"N" (.paren 0 0 0))) :=
    .expr (.neg (.defd c%"N" (.paren 0 0 0))) [(1, .bang), (0, .defd c%"N" (.paren 0 0 0))] 0 trivial ⟨by decide, hN⟩ rfl rfl
  refine .leaf _ _ _ _ _ (.swap _ _ _ _ _ _ _ _ _ _ _ _ _ _ ?_ (.leaf _ _ _ _ _ .nil) (.leaf _ _ _ _ _ .nil)
    (.cond _ _ _ _ _ _ _ _ _ _ ?_ (.leaf _ _ _ _ _ .nil) (.split _ _ _ _ _ _ _ _ _ _ ?_ (.leaf _ _ _ _ _ .nil) (.endif _ _)) .nil))
  · exact ⟨_, _, .ifdef _ (.plain 0), hneg, fun d => by simp [CE.true, CE.value]⟩
  · exact .inr ⟨_, _, means_defd hM 0 0 0 rfl, .ifdef _ (.plain 0), fun d => by simp [CE.true, CE.value]⟩
  · exact .inr ⟨_, _, means_defd hN 0 1 0 rfl, .ifdef _ (.plain 0), fun d => by simp [CE.true, CE.value]⟩

theorem C100_example :
    IsSource formAText formA.texts ∧ IsSource formBText formB.texts ∧
    resultOf exSetup Store.empty c%"t.h" formAText = resultOf exSetup Store.empty c%"t.h" formBText ∧
    (fileGet formAText .variables c%"a").map Option.isSome = some true ∧ (fileGet formAText .variables c%"q").map Option.isSome = some false := by
  have hA : IsSource formAText formA.texts :=
    plain_source (by decide) (by decide) (by decide) (by decide) (by decide) rfl (by decide) (by decide)
  have hB : IsSource formBText formB.texts :=
    plain_source (by decide) (by decide) (by decide) (by decide) (by decide) rfl (by decide) (by decide)
  have hk := selected_check (w := exSetup) (ls := (formA.run (fileSem exSetup) (setFile Store.empty (some c%"t.h"))).2) (by decide +kernel)
  exact ⟨hA, hB, C100_alike_partial exSetup (by decide) (fun _ _ _ => rfl) tablesOk_empty formA_ok formB_ok hA hB forms_alike hk.1 hk.2,
    by decide +kernel, by decide +kernel⟩

/-- C100 fails for conditions that are equivalent in C but not for the parser: `!=` is never true. -/
theorem C100_counterexample_ne :
    (fileGet c%"#if 1 != 2\nint i;\n#endif" .variables c%"i").map Option.isSome = some false ∧
    (fileGet c%"#if !(1 == 2)\nint i;\n#endif" .variables c%"i").map Option.isSome = some true := ⟨by decide +kernel, by decide +kernel⟩

end Pyclib
