import Verif.Proof.FileToks
import Verif.Proof.File
import Verif.Proof.Adds
import Verif.Props.Grammar
/-! Theorems about whole files. -/
namespace Pyclib
open Spec

/-- The macro tables hold macros with names. -/
def TablesOk (s : Store DefVal) : Prop := MacOk s ∧ NamesOk (menvOf s)

theorem file_cond (w : Setup) (s : Store DefVal) (t : Str) (c : Cond) (h : TablesOk s) (hc : IsIf t c) :
    (fileSem w).cond s (ifRest t) = c.holds (fileSem w) s := by
  have := isIf_cond w.orc w.pyo h.2 hc
  cases c <;> exact this

theorem file_line (w : Setup) (s : Store DefVal) (t : Str) (l : Line) (h : TablesOk s) (hl : IsLeaf t l) :
    TablesOk (lineEnv (fileSem w).toPPSem s l) := by
  have hn := names_line w.orc w.pyo h.2 hl
  cases l with
  | define n r =>
    obtain ⟨h1, h2⟩ := (world_sim w).define s n ((fileSem w).expand s r) h.1
    refine ⟨h2, ?_⟩
    show NamesOk (menvOf (w.sem.define s n ((fileSem w).expand s r)))
    rw [h1]
    exact hn
  | undef n =>
    obtain ⟨h1, h2⟩ := (world_sim w).undef s n h.1
    refine ⟨h2, ?_⟩
    show NamesOk (menvOf (w.sem.undef s n))
    rw [h1]
    exact hn
  | _ => exact h

mutual
theorem sblock_skips (E : Type) (b : SBlock) : b.skips E = b.tree.skips E := by
  match b with
  | .nil => rfl
  | .leaf t l rest => simp only [SBlock.skips, SBlock.tree, Block.skips, sblock_skips E rest]
  | .cond t c body chain rest =>
    simp only [SBlock.skips, SBlock.tree, Block.skips, sblock_skips E body, schain_skips E chain, sblock_skips E rest]
theorem schain_skips (E : Type) (c : SChain) : c.skips E = c.tree.skips E := by
  match c with
  | .endif t => rfl
  | .els t body t' => simp only [SChain.skips, SChain.tree, Chain.skips, sblock_skips E body]
  | .elif t e body tail => simp only [SChain.skips, SChain.tree, Chain.skips, sblock_skips E body, schain_skips E tail]
end

section
variable {E : Type} {sem : CSem E} {P : E → Prop}

mutual
theorem sblock_trace (hc : ∀ env t c, P env → IsIf t c → sem.cond env (ifRest t) = c.holds sem env)
    (hl : ∀ env t l, P env → IsLeaf t l → P (lineEnv sem.toPPSem env l)) (b : SBlock) (hb : b.Ok) :
    ∀ env : E, P env → b.trace sem env = b.tree.trace sem.toPPSem env := by
  intro env hn
  match b, hb with
  | .nil, _ => rfl
  | .leaf t l rest, hb =>
    simp only [SBlock.trace, SBlock.tree, Block.trace, sblock_trace hc hl rest hb.2 _ (hl _ _ _ hn hb.1)]
  | .cond t c body chain rest, hb =>
    obtain ⟨h1, h2⟩ := sblock_run hc hl body hb.2.1 env hn
    obtain ⟨h3, h4⟩ := schain_run hc hl chain hb.2.2.1 env hn
    simp only [SBlock.trace, SBlock.tree, Block.trace, hc _ _ _ hn hb.1, sblock_skips, schain_skips, h1, h3,
      sblock_trace hc hl body hb.2.1 env hn, schain_trace hc hl chain hb.2.2.1 env hn,
      sblock_trace hc hl rest hb.2.2.2 _ h2, sblock_trace hc hl rest hb.2.2.2 _ h4]
theorem schain_trace (hc : ∀ env t c, P env → IsIf t c → sem.cond env (ifRest t) = c.holds sem env)
    (hl : ∀ env t l, P env → IsLeaf t l → P (lineEnv sem.toPPSem env l)) (c : SChain) (hcc : c.Ok) :
    ∀ env : E, P env → c.trace sem env = c.tree.trace sem.toPPSem env := by
  intro env hn
  match c, hcc with
  | .endif t, _ => rfl
  | .els t body t', ⟨_, hb, _⟩ => simp only [SChain.trace, SChain.tree, Chain.trace, sblock_trace hc hl body hb env hn]
  | .elif t e body tail, ⟨h, hb, ht⟩ =>
    simp only [SChain.trace, SChain.tree, Chain.trace, sblock_skips, schain_skips, sblock_trace hc hl body hb env hn,
      schain_trace hc hl tail ht env hn]
end
end

/-- The lines of a source text. -/
theorem source_lines {text : Str} {lines : List Str} (h : IsSource text lines) :
    splitOnC '\n' (joinLines (removeComments text)) = lines := by
  obtain ⟨segs, ps, h1, h2, _, _, h3, h4, h5, h6, h7⟩ := h
  rw [← h2, C15_remove_comments segs h1, ← h4, C16_join ps h3, ← h5, splitOnC_joinC h6 h7]

theorem tablesOk_setFile {s : Store DefVal} (h : TablesOk s) (f : Option Str) : TablesOk (setFile s f) := ⟨⟨h.1.1, h.1.2⟩, h.2⟩

/-- The text that `preprocess` makes of a file, and its tokens. -/
theorem file_tokens (w : Setup) {s : Store DefVal} (hs : TablesOk s) {text : Str} {b : SBlock} {ts : List Tk}
    (hsrc : IsSource text b.texts) (hb : b.Ok) (ht : FileTokens w.sem (b.trace (fileSem w) s) ts) :
    ∃ st out, preprocess w.sem s (removeComments text) = .ok (st, out) ∧ st.env = (b.run (fileSem w) s).1 ∧
      ∃ tail, tail.all isWhite = true ∧
        Lay ⟨tail, fun n => structPacking st.packList out (out.length - n)⟩ ' ' out ts := by
  have hc := fun env t c => file_cond w env t c
  have hl := fun env t l => file_line w env t l
  obtain ⟨hlines, hok⟩ := sblock_lines b hb
  have htr := sblock_trace (P := TablesOk) hc hl b hb s hs
  have hrun := (sblock_run (P := TablesOk) hc hl b hb s hs).1
  have hmach : ppRun w.sem 0 (PPState.init s) (b.texts.map classify) =
      trRun w.sem 0 (PPState.init s) (b.tree.trace w.sem s) := by
    rw [hlines]
    exact block_tr (i := 0) (s := PPState.init s) w.sem b.tree hok rfl (by simp [PPState.init])
  have hlive : Live (PPState.init s) := ⟨rfl, by simp [PPState.init]⟩
  have hplain := block_plain w.sem b.tree hok s
  obtain ⟨henv, hend⟩ := block_env w.sem b.tree s
  have hend' : endEnv w.sem s (b.tree.trace w.sem s) = (b.run (fileSem w) s).1 := by
    rw [hend]
    exact congrArg Prod.fst hrun
  rw [show b.trace (fileSem w) s = b.tree.trace w.sem s from htr] at ht
  rcases ht with ⟨ws, hw, rfl⟩ | ht
  · obtain ⟨st, os, its, h1, h2, h3, h4, h5, h6⟩ := words_run hw 0 (PPState.init s) hplain henv hlive
    refine ⟨st, itemsText its, ?_, h6.trans hend', ?_⟩
    · simp only [preprocess, source_lines hsrc, hmach, h1, h2]
      rfl
    · have hpk : ∀ n, structPacking st.packList (itemsText its) ((itemsText its).length - n) = none := by
        intro n
        rw [structPacking, h5]
        simp [PPState.init, packingAt, packingAtFrom]
      have := layW_items (pack := fun n => structPacking st.packList (itemsText its) ((itemsText its).length - n)) its ' '
        rfl h4 (by
          have : ∀ its' : List Item, (∀ it ∈ its', it.ws = [] ∨ it.pk = none) → PkOk (fun n =>
              structPacking st.packList (itemsText its) ((itemsText its).length - n)) its' := by
            intro its' hh
            induction its' with
            | nil => trivial
            | cons a l ih =>
              refine ⟨fun n _ _ ⟨u, hu⟩ => ?_, ih (fun it hi => hh it (by simp [hi]))⟩
              rcases hh a (by simp) with h | h
              · rw [h] at hu; cases hu
              · rw [h]; exact hpk n
          refine this its (fun it hit => ?_)
          cases hws : it.ws with
          | nil => exact .inl rfl
          | cons w0 wl =>
            right
            have hm : (⟨w0, it.pk⟩ : Tk) ∈ its.flatMap Item.toks :=
              List.mem_flatMap.2 ⟨it, hit, by simp [Item.toks, hws]⟩
            rw [h3] at hm
            obtain ⟨x, _, hx⟩ := List.mem_map.1 hm
            exact (Tk.mk.inj hx).2.symm)
      rw [h3] at this
      exact layW_lay this
  · have hpk : PK (PPState.init s) (⟨none, []⟩, true) := ⟨rfl, none, rfl, fun _ => rfl⟩
    obtain ⟨st, os, its, h1, h2, h3, h4, h5, h6⟩ := toks_run ht 0 (PPState.init s) hplain henv hlive hpk (PackInv.init s)
    refine ⟨st, itemsText its, ?_, h6.trans hend', ?_⟩
    · simp only [preprocess, source_lines hsrc, hmach, h1, h2]
      rfl
    · have := layW_items (pack := fun n => structPacking st.packList (itemsText its) ((itemsText its).length - n)) its ' '
        rfl (fun it hit => (h4 it hit).1) (pkOk_lines its (fun it hit => (h4 it hit).2) its [] rfl (by
          intro k it hk hc
          have := h5 k it hk hc
          simpa using this))
      rw [h3] at this
      exact layW_lay this

/-- C64: a whole file, from its text to the definition tables.  If C says that the file leads from the
tables `s` to the tables `s'` — comments removed, continued lines joined, conditionals obeyed, macros
expanded, and structures packed as the pragmas say — then processing the file raises nothing and ends in
exactly those tables. -/
theorem C64_file_partial (w : Setup) (hg : gramOk w.castGram = true) {s s' : Store DefVal} (hs : TablesOk s)
    {path text : Str} (h : FileMeans w s path text s') : ∃ out, processFile w s path text = .ok (s', out) := by
  obtain ⟨b, ts, hsrc, hb, ht, hh⟩ := h
  obtain ⟨st, out, h1, h2, tail, h3, h4⟩ := file_tokens w (tablesOk_setFile hs (some path)) hsrc hb ht
  have hh' := header_pack (p := fun n => structPacking st.packList out (out.length - n)) hh
  rw [← h2] at hh'
  have := parseDefs_read (g := w.gram st.packList out) hg hh' h4 h3
  refine ⟨out, ?_⟩
  simp only [processFile, h1, this]

/-- The tables after a step hold macros with names. -/
theorem adds_macros {s s' : Store DefVal} (h : Adds s s') :
    s'.defs .macros = s.defs .macros ∧ s'.defs .fnmacros = s.defs .fnmacros ∧ s'.cur = s.cur := by
  induction h with
  | refl => exact ⟨rfl, rfl, rfl⟩
  | add s' k n v h1 h2 _ ih =>
    refine ⟨?_, ?_, ih.2.2⟩
    · rw [defs_add, if_neg (Ne.symm h1)]; exact ih.1
    · rw [defs_add, if_neg (Ne.symm h2)]; exact ih.2.1

theorem adds_tablesOk {s s' : Store DefVal} (h : Adds s s') (hs : TablesOk s) : TablesOk s' := by
  obtain ⟨h1, h2, _⟩ := adds_macros h
  have e : menvOf s' = menvOf s := by unfold menvOf; rw [h1, h2]
  exact ⟨⟨h1 ▸ hs.1.1, h2 ▸ hs.1.2⟩, e ▸ hs.2⟩

/-- After a file that C understands the tables still hold macros with names. -/
theorem file_tablesOk (w : Setup) (hg : gramOk w.castGram = true) {s s' : Store DefVal} (hs : TablesOk s)
    {path text : Str} (h : FileMeans w s path text s') : TablesOk s' := by
  obtain ⟨b, ts, hsrc, hb, ht, hh⟩ := h
  have hs' := tablesOk_setFile hs (some path)
  obtain ⟨st, out, h1, h2, tail, h3, h4⟩ := file_tokens w hs' hsrc hb ht
  have hh' := header_pack (p := fun n => structPacking st.packList out (out.length - n)) hh
  rw [← h2] at hh'
  have e := parseDefs_read (g := w.gram st.packList out) hg hh' h4 h3
  have h5 : TablesOk st.env := by
    rw [h2]
    exact (sblock_run (P := TablesOk) (fun env t c => file_cond w env t c) (fun env t l => file_line w env t l) b hb _ hs').2
  have := adds_parseDefs (w.gram st.packList out) st.env out
  rw [e] at this
  exact adds_tablesOk this h5

/-- C64: several files one after the other: each sees the macros and definitions of those before it. -/
theorem C64_files_partial (w : Setup) (hg : gramOk w.castGram = true) {fs : List (Str × Str)} : ∀ {s s' : Store DefVal},
    TablesOk s → FilesMean w s fs s' → processFiles w s fs = .ok s' := by
  induction fs with
  | nil => intro s s' _ h; cases h; rfl
  | cons f fs ih =>
    intro s s' hs h
    cases h with
    | cons _ s1 _ path text _ h1 h2 =>
      obtain ⟨out, e⟩ := C64_file_partial w hg hs h1
      simp only [processFiles, e]
      exact ih (file_tablesOk w hg hs h1) h2

/-- The tables of a new parser. -/
theorem tablesOk_empty : TablesOk (Store.empty : Store DefVal) :=
  ⟨⟨(by intro p hp; cases hp), (by intro p hp; cases hp)⟩, by constructor <;> intro k v h <;> cases h⟩

/-! ### A concrete file -/

theorem words_textOf {tail : Str} (ht : tail.all isWhite = true) : ∀ (l : List (Str × Str)) (p : Char), layOk p l = true →
    Words p (textOf tail l) (l.map (·.2))
  | [], p, _ => .nil p _ ht
  | (ws, []) :: l, p, h => by simp [layOk] at h
  | (ws, c :: w) :: l, p, h => by
    simp only [layOk, Bool.and_eq_true, List.head?_cons, Option.any_some, Bool.or_eq_true, Bool.not_eq_true',
      List.isEmpty_eq_false_iff] at h
    have := Words.cons p ws c w _ _ h.1.1 h.1.2.1 h.1.2.2 (words_textOf ht l _ h.2)
    simpa [textOf] using this

theorem words_of {t : Str} (tail : Str) (l : List (Str × Str)) (e : t = textOf tail l) (ht : tail.all isWhite = true)
    (h : layOk '\n' l = true) : Words '\n' t (l.map (·.2)) := by rw [e]; exact words_textOf ht l _ h

/-- No extra types or modifiers; Python is never asked. -/
def exSetup : Setup := ⟨⟨false, false, []⟩, [], fun _ => [], fun _ _ => .none, fun _ _ => none, fun _ => none⟩

/-- A file with a comment, a continued line, a macro, a conditional, and a packed structure. -/
def exFile : Str :=
  c%"/* sizes */\n#define N 4\n#ifndef M // guard\n#pragma pack(push, 1)\nstruct S { char c; \\\nint x[N];\n};\n#pragma pack(pop)\n#else\nint y;\n#endif\n\nstruct T { int z; };"

/-- Its lines and their meaning. -/
def exBlock : SBlock :=
  .leaf [] (.code []) (.leaf c%"#define N 4" (.define c%"N" c%" 4") (.cond c%"#ifndef M " (.ifndef c%"M")
    (.leaf c%"#pragma pack(push, 1)" (.pragma c%" pack(push, 1)")
      (.leaf c%"struct S { char c; int x[N];" (.code c%"struct S { char c; int x[N];")
        (.leaf c%"};" (.code c%"};") (.leaf c%"#pragma pack(pop)" (.pragma c%" pack(pop)") .nil))))
    (.els c%"#else" (.leaf c%"int y;" (.code c%"int y;") .nil) c%"#endif")
    (.leaf [] (.code []) (.leaf c%"struct T { int z; };" (.code c%"struct T { int z; };") .nil))))

/-- `CodeOk` as a computation. -/
def codeOkB : Str → Bool
  | [] => true
  | [c] => c ≠ '"' && c ≠ '\''
  | c :: d :: s => c ≠ '"' && c ≠ '\'' && !(c = '/' && (d = '/' || d = '*')) && codeOkB (d :: s)

theorem codeOk_of : ∀ {s : Str}, codeOkB s = true → CodeOk s
  | [], _ => trivial
  | [c], h => by simpa [codeOkB, CodeOk] using h
  | c :: d :: s, h => by
    simp only [codeOkB, Bool.and_eq_true, Bool.not_eq_true', decide_eq_true_eq, Bool.and_eq_false_iff, Bool.or_eq_false_iff,
      decide_eq_false_iff_not] at h
    refine ⟨h.1.1.1, h.1.1.2, ?_, codeOk_of h.2⟩
    rintro ⟨h1, h2⟩
    rcases h.1.2 with h3 | h3
    · exact h3 h1
    · rcases h2 with h2 | h2
      · exact h3.1 h2
      · exact h3.2 h2

/-- Does the text contain the piece? -/
def hasPiece (t : Str) : Str → Bool
  | [] => t.isEmpty
  | c :: s => t.isPrefixOf (c :: s) || hasPiece t s

theorem hasPiece_false {t : Str} (a b : Str) : ∀ {s : Str}, hasPiece t s = false → s ≠ a ++ (t ++ b) := by
  induction a with
  | nil =>
    rintro s h rfl
    cases t with
    | nil => cases b <;> simp [hasPiece] at h
    | cons c t =>
      simp only [List.nil_append, List.cons_append, hasPiece, Bool.or_eq_false_iff] at h
      have := h.1
      rw [← List.cons_append, List.isPrefixOf_iff_prefix.2 (List.prefix_append _ _)] at this
      cases this
  | cons x a ih =>
    rintro s h rfl
    simp only [List.cons_append, hasPiece, Bool.or_eq_false_iff] at h
    exact ih h.2 rfl

theorem noCont_of : ∀ {s : Str}, hasPiece ['\\', '\n'] s = false → NoCont s
  | [], _ => trivial
  | c :: s, h => by
    simp only [hasPiece, Bool.or_eq_false_iff] at h
    unfold NoCont
    split
    · rename_i e; cases e; simp at h
    · rename_i e; cases e; exact noCont_of h.2
    · trivial

theorem exFile_source : IsSource exFile exBlock.texts := by
  refine ⟨[.block c%" sizes ", .code c%"\n#define N 4\n#ifndef M ", .line c%" guard",
    .code c%"\n#pragma pack(push, 1)\nstruct S { char c; \\\nint x[N];\n};\n#pragma pack(pop)\n#else\nint y;\n#endif\n\nstruct T { int z; };"],
    [c%"\n#define N 4\n#ifndef M \n#pragma pack(push, 1)\nstruct S { char c; ",
     c%"int x[N];\n};\n#pragma pack(pop)\n#else\nint y;\n#endif\n\nstruct T { int z; };"], ?_, rfl, ?_, ?_, ?_, rfl, rfl, by decide, by decide⟩
  · refine ⟨?_, trivial, codeOk_of (by decide), fun h => absurd h (by decide), by simp [Seg.Ok], ?_, codeOk_of (by decide),
      fun h => absurd h (by decide), trivial⟩
    · intro a b
      exact hasPiece_false (t := ['*', '/']) a b (by decide)
    · intro c hc
      simpa [Seg.text] using hc.symm
  · refine ⟨.inl rfl, trivial, .inl rfl, trivial, trivial⟩
  · refine ⟨?_, ?_⟩
    · rintro a b c (rfl | rfl)
      · exact hasPiece_false (t := ['/', '\\', '\n']) a b (by decide)
      · exact hasPiece_false (t := ['*', '\\', '\n']) a b (by decide)
    · intro s hs
      simp at hs
      rw [hs]
      decide
  · intro p hp
    simp only [List.mem_cons, List.not_mem_nil, or_false] at hp
    rcases hp with rfl | rfl <;> exact noCont_of (by decide)

/-- The line does not begin with `#`. -/
theorem code_leaf {t : Str} (h : (lstrip t).head? ≠ some '#') : IsLeaf t (.code t) := by
  refine .code t (fun a r e => ?_)
  cases hc : a.any (fun c => !isSpaceC c) with
  | true =>
    obtain ⟨c, h1, h2⟩ := List.any_eq_true.1 hc
    exact ⟨c, h1, by simpa using h2⟩
  | false =>
    have : ∀ c ∈ a, isSpaceC c = true := by
      intro c hm
      have := List.any_eq_false.1 hc c hm
      simpa using this
    rw [e, lstrip, dropWhile_all this] at h
    exact absurd rfl h

theorem exBlock_ok : exBlock.Ok := by
  have b0 : Blank [] := by simp [Blank]
  have b1 : Blank [' '] := by simp [Blank]
  refine ⟨code_leaf (by decide), .define _ c%" N 4" _ _ ⟨[], [], b0, b0, rfl, by simp <;> decide⟩
    ⟨[' '], by simp, b1, ⟨'N', [], rfl, by decide, by simp⟩, rfl, by simp <;> decide⟩,
    .ifndef _ c%" M " _ [' '] ⟨[], [], b0, b0, rfl, by simp <;> decide⟩
      ⟨[' '], by simp, b1, ⟨'M', [], rfl, by decide, by simp⟩, rfl, by simp <;> decide⟩ b1,
    ⟨.pragma _ _ ⟨[], [], b0, b0, rfl, by simp <;> decide⟩, code_leaf (by decide), code_leaf (by decide),
      .pragma _ _ ⟨[], [], b0, b0, rfl, by simp <;> decide⟩, trivial⟩,
    ⟨⟨[], [], [], b0, b0, rfl, by simp⟩, ⟨code_leaf (by decide), trivial⟩, [], [], [], b0, b0, rfl, by simp⟩,
    code_leaf (by decide), code_leaf (by decide), trivial⟩

/-- The tokens of the example: the first structure is packed. -/
def exToks : List Tk :=
  ([c%"struct", c%"S", c%"{", c%"char", c%"c", c%";", c%"int", c%"x", c%"[", c%"4", c%"]", c%";", c%"}", c%";"].map
    (⟨·, some 1⟩)) ++ [c%"struct", c%"T", c%"{", c%"int", c%"z", c%";", c%"}", c%";"].map (⟨·, none⟩)

theorem exFile_toks (s : Store DefVal) (hs : s = setFile Store.empty (some c%"t.h")) :
    FileToks exSetup.sem (⟨none, []⟩, true) (exBlock.trace (fileSem exSetup) s) exToks := by
  subst hs
  have p1 : IsPack c%" pack(push, 1)" (.push none (some 1)) :=
    ⟨[' '], [], c%"push, 1", [], by simp, by simp [Blank], by simp [Blank], rfl, by decide, (by intro x hx; cases hx), rfl⟩
  have p2 : IsPack c%" pack(pop)" (.pop none none) :=
    ⟨[' '], [], c%"pop", [], by simp, by simp [Blank], by simp [Blank], rfl, by decide, (by intro x hx; cases hx), rfl⟩
  have w0 : Words '\n' ([] : Str) [] := .nil _ _ rfl
  show FileToks _ _ _ (([] : List Str).map (⟨·, none⟩) ++ ([c%"struct", c%"S", c%"{", c%"char", c%"c", c%";", c%"int",
    c%"x", c%"[", c%"4", c%"]", c%";"].map (⟨·, some 1⟩) ++ ([c%"}", c%";"].map (⟨·, some 1⟩) ++
    (([] : List Str).map (⟨·, none⟩) ++ ([c%"struct", c%"T", c%"{", c%"int", c%"z", c%";", c%"}", c%";"].map
    (⟨·, none⟩) ++ [])))))
  refine .code _ _ _ [] _ _ w0 (by decide) (fun h => by cases h) (.quiet _ _ _ _ _ rfl (.cond _ _ _ ?_))
  refine .pack _ _ _ _ (.push none (some 1)) _ _ p1 (.push _ _ _ (by intro h; cases h)) ?_
  refine .code _ _ _ _ _ _
    (words_of [] [([], c%"struct"), ([' '], c%"S"), ([' '], c%"{"), ([' '], c%"char"), ([' '], c%"c"), ([], c%";"),
      ([' '], c%"int"), ([' '], c%"x"), ([], c%"["), ([], c%"4"), ([], c%"]"), ([], c%";")] rfl rfl (by decide)) (by decide)
    (fun h => by cases h) ?_
  refine .code _ _ _ _ _ _ (words_of [] [([], c%"}"), ([], c%";")] rfl rfl (by decide)) (by decide) (fun _ => by decide) ?_
  refine .pack _ _ _ _ (.pop none none) _ _ p2 (.pop _ _ (by decide)) ?_
  refine .cond _ _ _ (.skip _ _ _ _ (by intro n r h; cases h) (by intro n h; cases h) (by intro r h; cases h) (.cond _ _ _ ?_))
  refine .code _ _ _ [] _ _ w0 (by decide) (fun h => by cases h) ?_
  exact .code _ _ _ _ _ [] (words_of [] [([], c%"struct"), ([' '], c%"T"), ([' '], c%"{"), ([' '], c%"int"),
    ([' '], c%"z"), ([], c%";"), ([' '], c%"}"), ([], c%";")] rfl rfl (by decide)) (by decide) (fun h => by cases h) (.nil _)

/-- The grammar of the example. -/
def exFileGram : Gram := ⟨exSetup.cfg, exSetup.mods, exSetup.ev, fun _ => none, exSetup.junk⟩

theorem ex_S (s s' : St) (h : procStruct exSetup.ev s false (some c%"S")
      [⟨[], c%"char", [dName c%"c"], none, none⟩,
       ⟨[], c%"int", [.mk [] none [] false (.name c%"x") false .nil [c%"4"]], none, none⟩] (some 1) =
      (s', some c%"struct S")) : CTop exFileGram s
    ([c%"struct", c%"S", c%"{", c%"char", c%"c", c%";", c%"int", c%"x", c%"[", c%"4", c%"]", c%";", c%"}", c%";"].map
      (⟨·, some 1⟩)) s' := by
  let t : Str → Tk := (⟨·, some 1⟩)
  have d1 : ∀ n, identOk exFileGram n = true → CDeclr exFileGram s [t n] s (dName n) := fun n hn =>
    .mk s s s [] [] [] [t n] [] [] [] none [] false (.name n) false .nil [] .nil noMod_nil .none .nil (by intro a b h; cases h)
      (.name s [] false (t n) .no hn) (.none s) .nil
  have d2 : CDeclr exFileGram s [t c%"x", t c%"[", t c%"4", t c%"]"] s
      (.mk [] none [] false (.name c%"x") false .nil [c%"4"]) :=
    .mk s s s [] [] [] [t c%"x"] [] [t c%"[", t c%"4", t c%"]"] [] none [] false (.name c%"x") false .nil [c%"4"] .nil noMod_nil .none .nil (by intro a b h; cases h)
      (.name s [] false (t c%"x") .no (by decide)) (.none s)
      (.len (t c%"[") (t c%"]") [t c%"4"] [] c%"4" [] rfl rfl
        ⟨[c%"4"], .atom _ _ (atom_num ⟨[], rfl, rfl, .inl ⟨by decide, by decide⟩⟩), rfl⟩ .nil)
  exact .type s s' [] ([c%"struct", c%"S", c%"{", c%"char", c%"c", c%";", c%"int", c%"x", c%"[", c%"4", c%"]", c%";",
      c%"}"].map t) (t c%";") [] c%"struct S" .no
    (spec_plain (.compDef s s s' false (t c%"struct") (t c%"{") (t c%"}") [t c%"S"]
      ([c%"char", c%"c", c%";", c%"int", c%"x", c%"[", c%"4", c%"]", c%";"].map t) (some c%"S") _ _ rfl
      (.some _ (by decide)) rfl rfl
      (.more _ _ _ ([c%"char", c%"c", c%";"].map t) _ _ _
        (.var _ _ _ [t c%"char"] [t c%"c"] (t c%";") [] c%"char" _ (spec_plain (.fund _ (t c%"char") [] (by decide)))
          (.one _ _ _ _ (d1 c%"c" (by decide))) rfl (joins_last (by decide)))
        (.one _ _ _ _ (.var _ _ _ [t c%"int"] ([c%"x", c%"[", c%"4", c%"]"].map t) (t c%";") [] c%"int" _
          (spec_plain (.fund _ (t c%"int") [] (by decide))) (.one _ _ _ _ d2) rfl (joins_last (by decide)))))
      h)) rfl

theorem ex_T (s s' : St) (h : procStruct exSetup.ev s false (some c%"T")
      [⟨[], c%"int", [dName c%"z"], none, none⟩] none = (s', some c%"struct T")) : CTop exFileGram s
    ([c%"struct", c%"T", c%"{", c%"int", c%"z", c%";", c%"}", c%";"].map (⟨·, none⟩)) s' := by
  exact .type s s' [] ([c%"struct", c%"T", c%"{", c%"int", c%"z", c%";", c%"}"].map tkw) (tkw c%";") [] c%"struct T" .no
    (spec_plain (.compDef s s s' false (tkw c%"struct") (tkw c%"{") (tkw c%"}") [tkw c%"T"]
      ([c%"int", c%"z", c%";"].map tkw) (some c%"T") _ _ rfl (.some _ (by decide)) rfl rfl
      (.one _ _ _ _ (.var _ _ _ [tkw c%"int"] [tkw c%"z"] (tkw c%";") [] c%"int" _
          (spec_plain (.fund _ (tkw c%"int") [] (by decide))) (.one _ _ _ _ (declr_simple .nil (by decide) .nil)) rfl (joins_last (by decide))))
      h)) rfl

/-- The hypotheses of C64 hold for the example, and this is what is recorded: the first structure is packed,
the array has the length that the macro stands for, and nothing comes from the branch not taken. -/
theorem C64_example : ∃ s', gramOk exSetup.castGram = true ∧ TablesOk (Store.empty : Store DefVal) ∧
    FileMeans exSetup Store.empty c%"t.h" exFile s' ∧
    s'.defs .structs = [
      (c%"S", .compound [⟨some c%"c", ⟨c%"char", [], [some []]⟩, .none, none⟩,
        ⟨some c%"x", ⟨c%"int", [.arr [some 4]], [some [], some []]⟩, .none, none⟩] (some 1)),
      (c%"T", .compound [⟨some c%"z", ⟨c%"int", [], [some []]⟩, .none, none⟩] none)] ∧
    s'.defs .variables = [] ∧ s'.defs .macros = [(c%"N", .macro c%"4")] ∧ s'.defs .values = [(c%"N", .value (.int 4))] := by
  refine ⟨_, by decide, tablesOk_empty, ⟨exBlock, exToks, exFile_source, exBlock_ok, .inr (exFile_toks _ rfl),
    .cons _ _ _ _ _ (ex_S _ _ rfl) (.cons _ _ _ _ [] (ex_T _ _ rfl) (.nil _))⟩, rfl, rfl, rfl, rfl⟩

/-- What a run over one file leaves in a table; `none` if there was an exception. -/
def fileGet (text : Str) (k : Kind) (n : Str) : Option (Option DefVal) :=
  match processFile exSetup Store.empty c%"t.h" text with
  | .ok (s, _) => some (dget (s.defs k) n)
  | .error _ => none

/-- The packing recorded for a structure. -/
def filePack (text : Str) (n : Str) : Option (Option Nat) :=
  match fileGet text .structs n with
  | some (some (.compound _ p)) => some p
  | _ => none

/-- C64 fails for a comment that stands alone between two words: C declares `x`, here nothing is found. -/
theorem C64_counterexample_comment : fileGet c%"int/**/x;" .variables c%"x" = some none ∧
    (fileGet c%"int /**/x;" .variables c%"x").map Option.isSome = some true := ⟨by rfl, by rfl⟩

/-- C64 fails for the packing of a structure on the line before a pragma, which gets the packing of that
pragma. -/
theorem C64_counterexample_line :
    filePack c%"#pragma pack(1)\nstruct S { int x; };\n#pragma pack()\n" c%"S" = some none ∧
    filePack c%"#pragma pack(1)\nstruct S {\nint x; };\n#pragma pack()\n" c%"S" = some (some 1) := ⟨by rfl, by rfl⟩

/-- C64 fails for a pragma after skipped macro definitions: the lines of these are dropped, but counted for
the pragma. -/
theorem C64_counterexample_skipped :
    filePack c%"#if 0\n#define A\n#define B\n#define C\n#endif\n#pragma pack(1)\nstruct S { int x; };" c%"S" = some none ∧
    filePack c%"#if 0\n#endif\n#pragma pack(1)\nstruct S { int x; };" c%"S" = some (some 1) := ⟨by rfl, by rfl⟩

end Pyclib
