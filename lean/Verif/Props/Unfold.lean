import Verif.Spec.Unfold
import Verif.Props.Macro
import Verif.Props.File
import Verif.Props.Relaid
import Verif.Proof.Check
/-! C93: a use of a macro means its replacement text, through whole files. -/
namespace Pyclib
open Spec

/-- C93: a line expands to the same line with the macros written out. -/
theorem C93_line_partial (orc : Str → List Str → Option Str) {m : MEnv} {l l' : Str} (h : Unfold m l l') : expandMacros orc m l = l' := by
  induction h with
  | done l h => exact C23_unchanged_partial orc m l h.1 h.2
  | word pre w rest rest' hp hw h1 h2 _ ih =>
    rw [List.append_assoc, expand_prefix orc m hp, expand_plain _ _ (findTok_wd hw.1 hw.2.1 hw.2.2) h1 h2, ih]
    simp
  | obj pre w v rest rest' hp hw h1 _ ih =>
    rw [List.append_assoc, expand_prefix orc m hp, expand_obj _ _ (findTok_wd hw.1 hw.2.1 hw.2.2) h1, ih]
    simp
  | call pre w gap stop stop' params args body f hp hw hc hg h1 h2 ok nb hne ha len _ _ ihf ih =>
    rw [C26_call_partial orc m pre w gap stop params args body hp hw hc hg h1 h2 ok nb hne ha len, ih,
      List.map_congr_left ihf]

theorem writtenOut_expand (orc : Str → List Str → Option Str) {m : MEnv} {l l' : Str} (h : WrittenOut m l l') :
    expandMacros orc m l = expandMacros orc m l' := by
  rw [C93_line_partial orc h.1, C23_unchanged_partial orc m l' h.2.1 h.2.2]

theorem lineOut_step (w : Setup) {i : Nat} {s : PPState (Store DefVal)} {l l' : Line} (hs : Live s)
    (h : LineOut (menvOf s.env) l l') : ppStep w.sem i s l = ppStep w.sem i s l' := by
  obtain ⟨ts, h1, h2⟩ := live_true hs
  cases h with
  | same => rfl
  | code l l' h =>
    have : w.sem.expand s.env l = w.sem.expand s.env l' := writtenOut_expand w.orc h
    simp only [ppStep, this]
  | define x r r' h =>
    have : w.sem.expand s.env r = w.sem.expand s.env r' := writtenOut_expand w.orc h
    simp only [ppStep, h1, h2, if_true, this]
  | pragma r r' h =>
    have : w.sem.expand s.env r = w.sem.expand s.env r' := writtenOut_expand w.orc h
    simp only [ppStep, h1, h2, if_true, this]

theorem entriesOut_run (w : Setup) {es es' : List (Entry (Store DefVal))} (h : EntriesOut menvOf es es') :
    ∀ (i : Nat) (s : PPState (Store DefVal)), SelPlain es → EnvOk w.sem s.env es → Live s →
      trRun w.sem i s es = trRun w.sem i s es' := by
  induction h with
  | nil => intros; rfl
  | cond es es' _ ih =>
    intro i s hp he hl
    have := ih (i + 1) s (fun e hm => hp e (by simp [hm])) he hl
    simp only [trRun, trStep, andThen_ok, this]
  | skip l l' es es' hk _ ih =>
    intro i s hp he hl
    have := ih (i + 1) s (fun e hm => hp e (by simp [hm])) he hl
    have e : skipOut l = skipOut l' := by cases hk <;> rfl
    simp only [trRun, trStep, andThen_ok, this, e]
  | sel e e' l l' es es' hk _ ih =>
    intro i s hp he hl
    obtain ⟨rfl, he⟩ := he
    have hstep := lineOut_step w (i := i) hl hk
    simp only [trRun, trStep, ← hstep]
    cases e1 : ppStep w.sem i s l with
    | error er => rfl
    | ok p =>
      obtain ⟨s1, o⟩ := p
      obtain ⟨h1, h2, _, _⟩ := ppStep_active (hp (.sel s.env l) (List.mem_cons_self ..) _ _ rfl) hl.1 e1
      simp only [andThen_ok]
      rw [ih (i + 1) s1 (fun e hm => hp e (by simp [hm])) (h1 ▸ he) ⟨h2 ▸ hl.1, h2 ▸ hl.2⟩]

/-- What `preprocess` makes of a file, by its entries. -/
theorem entries_pre (w : Setup) {s : Store DefVal} (hs : TablesOk s) {text : Str} {b : SBlock}
    (hsrc : IsSource text b.texts) (hb : b.Ok) :
    ppRun w.sem 0 (PPState.init s) ((splitOnC '\n' (joinLines (removeComments text))).map classify) =
      trRun w.sem 0 (PPState.init s) (b.trace (fileSem w) s) ∧
    SelPlain (b.trace (fileSem w) s) ∧ EnvOk w.sem s (b.trace (fileSem w) s) := by
  obtain ⟨hlines, hok⟩ := sblock_lines b hb
  have htr : b.trace (fileSem w) s = b.tree.trace w.sem s :=
    sblock_trace (P := TablesOk) (fun env t c => file_cond w env t c) (fun env t l => file_line w env t l) b hb s hs
  rw [htr, source_lines hsrc, hlines]
  exact ⟨block_tr (i := 0) (s := PPState.init s) w.sem b.tree hok rfl (by simp [PPState.init]),
    block_plain w.sem b.tree hok s, (block_env w.sem b.tree s).1⟩

/-- C93: a file, and the file in which uses of macros are written out, give the same definitions (and the
same preprocessed text, or the same error). -/
theorem C93_file_partial (w : Setup) {s : Store DefVal} (hs : TablesOk s) {path text text' : Str} {b b' : SBlock}
    (hsrc : IsSource text b.texts) (hb : b.Ok) (hsrc' : IsSource text' b'.texts) (hb' : b'.Ok)
    (h : EntriesOut menvOf (b.trace (fileSem w) (setFile s (some path))) (b'.trace (fileSem w) (setFile s (some path)))) :
    processFile w s path text = processFile w s path text' := by
  obtain ⟨h1, h2, h3⟩ := entries_pre w (tablesOk_setFile hs (some path)) hsrc hb
  obtain ⟨h1', _, _⟩ := entries_pre w (tablesOk_setFile hs (some path)) hsrc' hb'
  have := entriesOut_run w h 0 (PPState.init (setFile s (some path))) h2 h3 ⟨rfl, by simp [PPState.init]⟩
  simp only [processFile, preprocess, h1, h1', this]

/-- A well nested file keeps the macro tables in order. -/
theorem entries_keep (w : Setup) {s s' : Store DefVal} (hs : TablesOk s) {path text out : Str} {b : SBlock}
    (hsrc : IsSource text b.texts) (hb : b.Ok) (he : processFile w s path text = .ok (s', out)) : TablesOk s' := by
  have hs' := tablesOk_setFile hs (some path)
  obtain ⟨hlines, hok⟩ := sblock_lines b hb
  unfold processFile at he
  cases hp : preprocess w.sem (setFile s (some path)) (removeComments text) with
  | error e => rw [hp] at he; cases he
  | ok p =>
    obtain ⟨st, o⟩ := p
    rw [hp] at he
    simp only at he
    have h5 : TablesOk st.env := by
      simp only [preprocess, source_lines hsrc, hlines] at hp
      split at hp
      · cases hp
      · rename_i S os e1
        cases hp
        have h6 := (sblock_run (P := TablesOk) (fun env t c => file_cond w env t c) (fun env t l => file_line w env t l) b hb _ hs')
        have h7 := (block_live b.tree hok (i := 0) (s := PPState.init (setFile s (some path))) rfl e1).1
        rw [h7]
        have : (b.run (fileSem w) (setFile s (some path))).1 = (b.tree.run w.sem (setFile s (some path))).1 := congrArg Prod.fst h6.1.symm
        exact this ▸ h6.2
    have ha := adds_parseDefs (w.gram st.packList o) st.env o
    split at he
    · rename_i s1 e1
      cases he
      rw [e1] at ha
      exact adds_tablesOk ha h5
    · cases he

/-- Several files one after the other, each with macros written out that are in force at that place, be they
defined in the same file or in one before it. -/
inductive FilesOut (w : Setup) : Store DefVal → List (Str × Str) → List (Str × Str) → Prop where
  | nil (s) : FilesOut w s [] []
  | cons (s : Store DefVal) (path text text' : Str) (fs fs' : List (Str × Str)) (b b' : SBlock)
      (hsrc : IsSource text b.texts) (hb : b.Ok) (hsrc' : IsSource text' b'.texts) (hb' : b'.Ok)
      (h : EntriesOut menvOf (b.trace (fileSem w) (setFile s (some path))) (b'.trace (fileSem w) (setFile s (some path))))
      (ht : ∀ s' out, processFile w s path text = .ok (s', out) → FilesOut w s' fs fs') :
      FilesOut w s ((path, text) :: fs) ((path, text') :: fs')

/-- C93 for all files of a parser. -/
theorem C93_all_partial (w : Setup) {fs fs' : List (Str × Str)} {s : Store DefVal} (hs : TablesOk s)
    (h : FilesOut w s fs fs') : processFiles w s fs = processFiles w s fs' := by
  induction h with
  | nil s => rfl
  | cons s path text text' fs fs' b b' hsrc hb hsrc' hb' h ht ih =>
    have e := C93_file_partial w hs hsrc hb hsrc' hb' h
    simp only [processFiles, ← e]
    cases e1 : processFile w s path text with
    | error er => rfl
    | ok p => exact ih p.1 p.2 e1 (entries_keep w hs hsrc hb e1)

/-! ### A concrete file -/

/-- None of the names of the macros is a piece of the line. -/
theorem macroFree_of {m : MEnv} {l : Str} (h1 : ∀ k ∈ m.macros, hasPiece k.1 l = false)
    (h2 : ∀ k ∈ m.fnmacros, hasPiece k.1 l = false) (hq : l.count '"' ≤ 1) : MacroFree m l := by
  refine ⟨fun w ⟨a, b, e, _⟩ => ⟨?_, ?_⟩, .inl hq⟩
  · cases hg : dget m.macros w with
    | none => rfl
    | some v => exact absurd (e.trans (List.append_assoc ..)) (hasPiece_false a b (h1 _ (dget_some_mem hg)))
  · cases hg : dget m.fnmacros w with
    | none => rfl
    | some v => exact absurd (e.trans (List.append_assoc ..)) (hasPiece_false a b (h2 _ (dget_some_mem hg)))

/-- Uses of an empty macro, of a number, and of a function-like macro whose body uses the number. -/
def unfA : Str :=
  c%"#define API\n#define N 4\n#define ARR(t, n) t n[N]\n#ifdef N\nAPI int f(int a);\nARR(int, v);\n#else\nint z;\n#endif"
/-- The same with the macros written out. -/
def unfB : Str :=
  c%"#define API\n#define N 4\n#define ARR(t, n) t n[4]\n#ifndef M\n int f(int a);\nint v[4];\n#else\nchar y;\n#endif"

def unfBlockA : SBlock :=
  .leaf c%"#define API" (.define c%"API" []) (.leaf c%"#define N 4" (.define c%"N" c%" 4")
    (.leaf c%"#define ARR(t, n) t n[N]" (.define c%"ARR" c%"(t, n) t n[N]") (.cond c%"#ifdef N" (.ifdef c%"N")
      (.leaf c%"API int f(int a);" (.code c%"API int f(int a);") (.leaf c%"ARR(int, v);" (.code c%"ARR(int, v);") .nil))
      (.els c%"#else" (.leaf c%"int z;" (.code c%"int z;") .nil) c%"#endif") .nil)))
def unfBlockB : SBlock :=
  .leaf c%"#define API" (.define c%"API" []) (.leaf c%"#define N 4" (.define c%"N" c%" 4")
    (.leaf c%"#define ARR(t, n) t n[4]" (.define c%"ARR" c%"(t, n) t n[4]") (.cond c%"#ifndef M" (.ifndef c%"M")
      (.leaf c%" int f(int a);" (.code c%" int f(int a);") (.leaf c%"int v[4];" (.code c%"int v[4];") .nil))
      (.els c%"#else" (.leaf c%"char y;" (.code c%"char y;") .nil) c%"#endif") .nil)))

/-- A text without comments, literals and continued lines. -/
theorem unfSource (t : Str) (b : SBlock) (h1 : codeOkB t = true) (h2 : joinC '\n' b.texts = t) (h3 : b.texts ≠ [])
    (h4 : ∀ l ∈ b.texts, '\n' ∉ l) (h5 : '\\' ∉ t) (h6 : t.getLast? ≠ some '/') : IsSource t b.texts := by
  refine ⟨[.code t], [t], ⟨codeOk_of h1, fun h => absurd h h6, trivial⟩, by simp [Seg.text], ⟨trivial, trivial⟩, ⟨?_, ?_⟩, ?_, ?_, ?_, h3, h4⟩
  · rintro a b c _ rfl
    simp at h5
  · intro s hs
    simp at hs
  · intro p hp
    simp only [List.mem_cons, List.not_mem_nil, or_false] at hp
    rw [hp]
    refine noCont_of ?_
    cases e : hasPiece ['\\', '\n'] t with
    | false => rfl
    | true =>
      exfalso
      clear h1 h2 h6 hp
      induction t with
      | nil => simp [hasPiece] at e
      | cons c t ih =>
        simp only [hasPiece, Bool.or_eq_true] at e
        rcases e with e | e
        · have := List.isPrefixOf_iff_prefix.1 e
          obtain ⟨r, hr⟩ := this
          rw [← hr] at h5
          simp at h5
        · exact ih (fun h => h5 (by simp [h])) e
  · simp [glue, Seg.kept, Seg.text]
  · simp [h2]

theorem unfA_source : IsSource unfA unfBlockA.texts :=
  unfSource _ _ (by decide) (by decide) (by decide) (by decide) (by decide) (by decide)
theorem unfB_source : IsSource unfB unfBlockB.texts :=
  unfSource _ _ (by decide) (by decide) (by decide) (by decide) (by decide) (by decide)

theorem unfA_ok : unfBlockA.Ok := by
  have b0 : Blank [] := by simp [Blank]
  have b1 : Blank [' '] := by simp [Blank]
  refine ⟨.define _ c%" API" _ _ ⟨[], [], b0, b0, rfl, by decide⟩
      ⟨[' '], by simp, b1, ⟨'A', c%"PI", rfl, by decide, by decide⟩, rfl, by decide⟩,
    .define _ c%" N 4" _ _ ⟨[], [], b0, b0, rfl, by decide⟩
      ⟨[' '], by simp, b1, ⟨'N', [], rfl, by decide, by simp⟩, rfl, by decide⟩,
    .define _ c%" ARR(t, n) t n[N]" _ _ ⟨[], [], b0, b0, rfl, by decide⟩
      ⟨[' '], by simp, b1, ⟨'A', c%"RR", rfl, by decide, by decide⟩, rfl, by decide⟩,
    .ifdef _ c%" N" _ [] ⟨[], [], b0, b0, rfl, by decide⟩
      ⟨[' '], by simp, b1, ⟨'N', [], rfl, by decide, by simp⟩, rfl, by decide⟩ b0,
    ⟨code_leaf (by decide), code_leaf (by decide), trivial⟩,
    ⟨⟨[], [], [], b0, b0, rfl, by simp⟩, ⟨code_leaf (by decide), trivial⟩, [], [], [], b0, b0, rfl, by simp⟩, trivial⟩
theorem unfB_ok : unfBlockB.Ok := by
  have b0 : Blank [] := by simp [Blank]
  have b1 : Blank [' '] := by simp [Blank]
  refine ⟨.define _ c%" API" _ _ ⟨[], [], b0, b0, rfl, by decide⟩
      ⟨[' '], by simp, b1, ⟨'A', c%"PI", rfl, by decide, by decide⟩, rfl, by decide⟩,
    .define _ c%" N 4" _ _ ⟨[], [], b0, b0, rfl, by decide⟩
      ⟨[' '], by simp, b1, ⟨'N', [], rfl, by decide, by simp⟩, rfl, by decide⟩,
    .define _ c%" ARR(t, n) t n[4]" _ _ ⟨[], [], b0, b0, rfl, by decide⟩
      ⟨[' '], by simp, b1, ⟨'A', c%"RR", rfl, by decide, by decide⟩, rfl, by decide⟩,
    .ifndef _ c%" M" _ [] ⟨[], [], b0, b0, rfl, by decide⟩
      ⟨[' '], by simp, b1, ⟨'M', [], rfl, by decide, by simp⟩, rfl, by decide⟩ b0,
    ⟨code_leaf (by decide), code_leaf (by decide), trivial⟩,
    ⟨⟨[], [], [], b0, b0, rfl, by simp⟩, ⟨code_leaf (by decide), trivial⟩, [], [], [], b0, b0, rfl, by simp⟩, trivial⟩

/-- The macros before the third and after the third line. -/
def unfM1 : MEnv := ⟨[(c%"API", []), (c%"N", c%"4")], []⟩
def unfM2 : MEnv := ⟨[(c%"API", []), (c%"N", c%"4")], [(c%"ARR", compileFn c%"t n[4]" [c%"t", c%"n"])]⟩

theorem unf_line1 : WrittenOut unfM1 c%"(t, n) t n[N]" c%"(t, n) t n[4]" := by
  refine ⟨?_, macroFree_of (by decide) (by decide) (by decide)⟩
  refine .word c%"(" c%"t" c%", n) t n[N]" c%", n) t n[4]" (by unfold Before; decide) (by unfold WordThen; decide) rfl rfl ?_
  refine .word c%", " c%"n" c%") t n[N]" c%") t n[4]" (by unfold Before; decide) (by unfold WordThen; decide) rfl rfl ?_
  refine .word c%") " c%"t" c%" n[N]" c%" n[4]" (by unfold Before; decide) (by unfold WordThen; decide) rfl rfl ?_
  refine .word c%" " c%"n" c%"[N]" c%"[4]" (by unfold Before; decide) (by unfold WordThen; decide) rfl rfl ?_
  exact .obj c%"[" c%"N" c%"4" c%"]" c%"]" (by unfold Before; decide) (by unfold WordThen; decide) rfl
    (.done _ (macroFree_of (by decide) (by decide) (by decide)))

theorem unf_line2 : WrittenOut unfM2 c%"API int f(int a);" c%" int f(int a);" :=
  ⟨.obj [] c%"API" [] c%" int f(int a);" c%" int f(int a);" (by unfold Before; decide) (by unfold WordThen; decide) rfl
    (.done _ (macroFree_of (by decide) (by decide) (by decide))), macroFree_of (by decide) (by decide) (by decide)⟩

theorem unf_line3 : WrittenOut unfM2 c%"ARR(int, v);" c%"int v[4];" := by
  refine ⟨?_, macroFree_of (by decide) (by decide) (by decide)⟩
  refine .call [] c%"ARR" [] c%";" c%";" [c%"t", c%"n"] [c%"int", c%" v"]
    [.word c%"t", .chr ' ', .word c%"n", .chr '[', .word c%"4", .chr ']'] strip (by unfold Before; decide) (by decide) (by decide)
    (by decide) rfl rfl ?_ (by decide) (by decide) (by decide) (by decide) ?_ (.done _ (macroFree_of (by decide) (by decide) (by decide)))
  · refine .word _ _ (by decide) (by decide) (by simp) (.chr _ _ rfl (by decide) (.word _ _ (by decide) (by decide) (by simp)
      (.chr _ _ rfl (by decide) (.word _ _ (by decide) (by decide) (by simp) (.chr _ _ rfl (by decide) .nil)))))
  · intro a ha
    simp only [List.mem_cons, List.not_mem_nil, or_false] at ha
    rcases ha with rfl | rfl <;> exact .done _ (macroFree_of (by decide) (by decide) (by decide))

theorem unf_entries : EntriesOut menvOf (unfBlockA.trace (fileSem exSetup) (setFile Store.empty (some c%"t.h")))
    (unfBlockB.trace (fileSem exSetup) (setFile Store.empty (some c%"t.h"))) := by
  refine .sel _ _ _ _ _ _ (.same _) (.sel _ _ _ _ _ _ (.same _) (.sel _ _ _ _ _ _ (.define _ _ _ unf_line1) (.cond _ _
    (.sel _ _ _ _ _ _ (.code _ _ unf_line2) (.sel _ _ _ _ _ _ (.code _ _ unf_line3) (.cond _ _ (.skip _ _ _ _ (.code _ _)
      (.cond _ _ .nil))))))))

/-- Non-vacuity: the two files give the same definitions, a function and an array. -/
theorem C93_example : processFile exSetup Store.empty c%"t.h" unfA = processFile exSetup Store.empty c%"t.h" unfB ∧
    (fileGet unfA .functions c%"f").map Option.isSome = some true ∧
    (fileGet unfB .variables c%"v").map Option.isSome = some true :=
  ⟨C93_file_partial exSetup tablesOk_empty unfA_source unfA_ok unfB_source unfB_ok unf_entries, by decide +kernel, by decide +kernel⟩

/-- C93 fails after a string literal: macros are not replaced there. -/
theorem C93_counterexample_string :
    (fileGet c%"#define Q\nchar s[] = \"a\"; int x Q;" .variables c%"x").map Option.isSome = some false ∧
    (fileGet c%"#define Q\nchar s[] = \"a\"; int x ;" .variables c%"x").map Option.isSome = some true :=
  ⟨by decide +kernel, by decide +kernel⟩

/-- C93 fails for a macro that is defined with a macro that comes later. -/
theorem C93_counterexample_later :
    (fileGet c%"#define A B\n#define B\nint x A;" .variables c%"x").map Option.isSome = some false ∧
    (fileGet c%"#define A B\n#define B\nint x ;" .variables c%"x").map Option.isSome = some true :=
  ⟨by decide +kernel, by decide +kernel⟩

end Pyclib
