import Verif.Spec.Dead
import Verif.Proof.Split
import Verif.Props.Split
import Verif.Props.PPExpr
/-! Theorems about text that is skipped (C98). -/
namespace Pyclib
open Spec

section
variable {E : Type} {sem : PPSem E}

theorem ppStep_keeps {i : Nat} {s s' : PPState E} {l : Line} {o : Option Out} (h : ppStep sem i s l = .ok (s', o)) (h1 : ∀ n r, l ≠ .define n r)
    (h2 : ∀ n, l ≠ .undef n) (h3 : ∀ r, l ≠ .pragma r) : o.toList.length = 1 := by
  cases l with
  | define n r => exact absurd rfl (h1 n r)
  | undef n => exact absurd rfl (h2 n)
  | pragma r => exact absurd rfl (h3 r)
  | badName => simp [ppStep] at h
  | _ =>
    simp only [ppStep] at h
    repeat' split at h
    all_goals first | cases h; rfl | cases h

theorem ppRun_keeps : ∀ (ls : List Line) {i : Nat} {s s' : PPState E} {os : List Out}, ppRun sem i s ls = .ok (s', os) →
    (∀ l ∈ ls, (∀ n r, l ≠ .define n r) ∧ (∀ n, l ≠ .undef n) ∧ ∀ r, l ≠ .pragma r) → os.length = ls.length
  | [], i, s, s', os, h, _ => by simp only [ppRun] at h; cases h; rfl
  | l :: ls, i, s, s', os, h, hl => by
    obtain ⟨s1, o, os', h1, h2, rfl⟩ := ppRun_cons_ok h
    obtain ⟨a, b, c⟩ := hl l (by simp)
    have := ppStep_keeps h1 a b c
    have := ppRun_keeps ls h2 (fun l hl' => hl l (by simp [hl']))
    simp only [List.length_append, List.length_cons]
    omega

theorem blank_of_codes : ∀ {os : List Out}, codes os = [] → os = List.replicate os.length .blank
  | [], _ => rfl
  | .blank :: os, h => by
    rw [List.length_cons, List.replicate_succ, ← blank_of_codes (os := os) (by simpa [codes] using h)]
  | .code t :: os, h => by simp [codes] at h
end

theorem around_classify (la : List Str) {d : SBlock} (hd : d.Ok) (lb : List Str) :
    (la ++ (d.texts ++ lb)).map classify = la.map classify ++ (d.tree.lines ++ lb.map classify) := by
  simp [(sblock_lines d hd).1]

theorem off_cons {E : Type} {st : PPState E} (h : st.ifTrue.head? = some false) : st.ifTrue = false :: st.ifTrue.tail := by
  cases e : st.ifTrue with
  | nil => rw [e] at h; cases h
  | cons x l => rw [e] at h; cases h; rfl

/-- C98: what stands where text is skipped does not matter: with any other well nested lines there the result is the same, tables, packings, text
and exceptions, if there are as many lines and no definitions and pragmas among them. -/
theorem C98_lines (w : Setup) {s : St} {path text text' : Str} {la lb : List Str} {d d' : SBlock} (hd : d.Ok) (hd' : d'.Ok)
    (h : IsSource text (la ++ (d.texts ++ lb))) (h' : IsSource text' (la ++ (d'.texts ++ lb))) (hs : Off w s path la)
    (hlen : d.texts.length = d'.texts.length) (hn : ∀ t ∈ d.texts ++ d'.texts, NoEffect t) :
    processFile w s path text = processFile w s path text' := by
  have key : preprocess w.sem (setFile s (some path)) (removeComments text) = preprocess w.sem (setFile s (some path)) (removeComments text') := by
    rw [preprocess_out, preprocess_out, source_lines h, source_lines h', around_classify la hd, around_classify la hd', ppRun_append, ppRun_append]
    cases hr : ppRun w.sem 0 (PPState.init (setFile s (some path))) (la.map classify) with
    | error e => rfl
    | ok q =>
      obtain ⟨st, o1⟩ := q
      have hz := off_cons (hs st o1 hr)
      obtain ⟨os, g1, g2⟩ := block_dead d.tree (sblock_lines d hd).2 (sem := w.sem) (i := 0 + (la.map classify).length) hz
      obtain ⟨os', g1', g2'⟩ := block_dead d'.tree (sblock_lines d' hd').2 (sem := w.sem) (i := 0 + (la.map classify).length) hz
      have cond : ∀ d0 : SBlock, d0.Ok → (∀ t ∈ d0.texts, NoEffect t) → ∀ l ∈ d0.tree.lines,
          (∀ n r, l ≠ .define n r) ∧ (∀ n, l ≠ .undef n) ∧ ∀ r, l ≠ .pragma r := by
        intro d0 h0 ht l hl
        rw [← (sblock_lines d0 h0).1] at hl
        obtain ⟨t, h1, rfl⟩ := List.mem_map.1 hl
        exact ht t h1
      have n1 := ppRun_keeps _ g1 (cond d hd (fun t ht => hn t (by simp [ht])))
      have n2 := ppRun_keeps _ g1' (cond d' hd' (fun t ht => hn t (by simp [ht])))
      have hl : d.tree.lines.length = d'.tree.lines.length := by
        rw [← (sblock_lines d hd).1, ← (sblock_lines d' hd').1]
        simp [hlen]
      have e : os = os' := by
        rw [blank_of_codes g2, blank_of_codes g2', n1, n2, hl]
      subst e
      simp only [andThen_ok]
      rw [ppRun_append, ppRun_append, g1, g1']
      simp only [andThen_ok, hl]
  unfold processFile
  rw [key]

theorem follows_self {os : List Out} (h : Starts (joinC '\n' (os.map Out.text))) (hl : (joinC '\n' (os.map Out.text)).getLast? ≠ some '\\') :
    Follows (nlText os) (nlText os) := by
  by_cases ho : os = []
  · subst ho; exact follows_nil
  · rw [nlText_join ho]
    have := follows_text (t := joinC '\n' (os.map Out.text)) (t' := joinC '\n' (os.map Out.text)) (u := []) (u' := [])
      ⟨respaced_refl _ _ _ _ (Nat.lt_succ_self _), h, hl, hl⟩ follows_nil
    simpa using this

theorem codes_white : ∀ {os : List Out}, codes os = [] → (nlText os).all isWhite = true
  | [], _ => rfl
  | .blank :: os, h => by
    have := codes_white (os := os) (by simpa [codes] using h)
    simp only [nlText, List.flatMap_cons, Out.text, List.all_append, Bool.and_eq_true]
    exact ⟨rfl, this⟩
  | .code t :: os, h => by simp [codes] at h

theorem join_nl {o1 : List Out} (h : o1 ≠ []) (o : List Out) : joinC '\n' ((o1 ++ o).map Out.text) = joinC '\n' (o1.map Out.text) ++ nlText o := by
  by_cases ho : o = []
  · subst ho; simp [nlText]
  · rw [joinC_outs o1 _ h ho, nlText_join ho]

/-- The text around a region. -/
theorem resp_around {o1 b b' o2 : List Out} (hb : codes b = []) (hb' : codes b' = [])
    (h1 : (joinC '\n' (o1.map Out.text)).getLast? ≠ some '\\') (h2 : Starts (joinC '\n' (o2.map Out.text)))
    (h3 : (joinC '\n' (o2.map Out.text)).getLast? ≠ some '\\') :
    Resp .free ' ' (joinC '\n' ((o1 ++ (b ++ o2)).map Out.text)) (joinC '\n' ((o1 ++ (b' ++ o2)).map Out.text)) := by
  have hf : Follows (nlText (b ++ o2)) (nlText (b' ++ o2)) := by
    have e1 := nlText_eol (b ++ o2)
    have e2 := nlText_eol (b' ++ o2)
    rw [nlText_append] at e1 e2
    rw [nlText_append, nlText_append]
    exact follows_blank (follows_self h2 h3) (codes_white hb) (codes_white hb') e1 e2
  by_cases ho : o1 = []
  · subst ho
    exact resp_out hf
  · rw [join_nl ho, join_nl ho]
    exact resp_append hf (respaced_refl _ _ _ _ (Nat.lt_succ_self _)) h1 h1

/-- C98 for any well nested lines in the region, definitions and pragmas too: the tables or the exception are the same, if there are no pragmas
outside the region. -/
theorem C98_file_partial (w : Setup) (hg : gramOk w.castGram = true)
    (hj : ∀ t t', Respaced (fun _ => none) (fun _ => none) .free ';' t t' → w.junk t = w.junk t') {s : St} {path text text' : Str} {la lb : List Str}
    {d d' : SBlock} (hd : d.Ok) (hd' : d'.Ok)
    (h : IsSource text (la ++ (d.texts ++ lb))) (h' : IsSource text' (la ++ (d'.texts ++ lb))) (hs : Off w s path la)
    (hpr : ∀ t ∈ la ++ lb, ∀ r, classify t ≠ .pragma r) (hl : Loose w s path la lb) :
    resultOf w s path text = resultOf w s path text' := by
  unfold resultOf processFile
  rw [preprocess_out, preprocess_out, source_lines h, source_lines h', around_classify la hd, around_classify la hd', ppRun_append, ppRun_append]
  cases hr : ppRun w.sem 0 (PPState.init (setFile s (some path))) (la.map classify) with
  | error e => rfl
  | ok q =>
    obtain ⟨st, o1⟩ := q
    have hz := off_cons (hs st o1 hr)
    obtain ⟨os, g1, g2⟩ := block_dead d.tree (sblock_lines d hd).2 (sem := w.sem) (i := 0 + (la.map classify).length) hz
    obtain ⟨os', g1', g2'⟩ := block_dead d'.tree (sblock_lines d' hd').2 (sem := w.sem) (i := 0 + (la.map classify).length) hz
    simp only [andThen_ok]
    rw [ppRun_append, ppRun_append, g1, g1']
    simp only [andThen_ok]
    generalize 0 + (la.map classify).length + d.tree.lines.length = i
    generalize 0 + (la.map classify).length + d'.tree.lines.length = i'
    have hpa : ∀ l ∈ la.map classify, ∀ r, l ≠ .pragma r := by
      intro l hm
      obtain ⟨t, ht, rfl⟩ := List.mem_map.1 hm
      exact hpr t (by simp [ht])
    have hpb : ∀ l ∈ lb.map classify, ∀ r, l ≠ .pragma r := by
      intro l hm
      obtain ⟨t, ht, rfl⟩ := List.mem_map.1 hm
      exact hpr t (by simp [ht])
    have hi : ppRun w.sem i' st (lb.map classify) = ppRun w.sem i st (lb.map classify) := by
      have a := ppRun_pk w.sem st (lb.map classify) hpb i i' st
      have b := ppRun_pk w.sem st (lb.map classify) hpb i i st
      rw [show st.withPk st = st from rfl] at a b
      rw [a, ← b]
    rw [hi]
    have p1 := ppRun_packs w.sem hpa hr
    cases hb : ppRun w.sem i st (lb.map classify) with
    | error e => rfl
    | ok q =>
      obtain ⟨st', o2⟩ := q
      obtain ⟨k1, k2⟩ := hl st o1 hr
      obtain ⟨k3, k4⟩ := k2 i st' o2 hb
      have p2 : st'.packList = [(0, none)] := (ppRun_packs w.sem hpb hb).trans p1
      simp only [outOf, p2, gram_none]
      rw [C59_blanks_partial (c := none) (g := ⟨w.cfg, w.mods, w.ev, fun _ => none, w.junk⟩) hg rfl st'.env hj
        (resp_around g2 g2' k1 k3 k4)]
      split <;> rfl

/-- The macros after well nested lines. -/
theorem after_lines (w : Setup) {s : St} (ht : TablesOk s) {a : SBlock} (ha : a.Ok) {st : PPState St} {os : List Out}
    (hr : ppRun w.sem 0 (PPState.init s) (a.texts.map classify) = .ok (st, os)) :
    st.env = (a.run (fileSem w) s).1 ∧ TablesOk st.env ∧ st.ifTrue = [true] := by
  obtain ⟨hl, hok⟩ := sblock_lines a ha
  rw [hl] at hr
  obtain ⟨e1, e2⟩ := sblock_run (P := TablesOk) (fun env t c => file_cond w env t c) (fun env t l => file_line w env t l) a ha _ ht
  obtain ⟨h1, h2, _⟩ := block_live a.tree hok (by simp [PPState.init]) hr
  have he : st.env = (a.run (fileSem w) s).1 := h1.trans (congrArg Prod.fst e1)
  exact ⟨he, by rw [he]; exact e2, h2⟩

/-- After well nested lines and an `#if`, `#ifdef` or `#ifndef` text is skipped if the condition is false for the macros of these lines. -/
theorem C98_if (w : Setup) {s : St} (ht : TablesOk s) {path : Str} {a : SBlock} (ha : a.Ok) {t0 : Str} {c : Cond} (h0 : IsIf t0 c)
    (hc : c.holds (fileSem w) (a.run (fileSem w) (setFile s (some path))).1 = false) : Off w s path (a.texts ++ [t0]) := by
  intro st os hr
  rw [List.map_append] at hr
  obtain ⟨s1, o1, o2, r1, r2, _⟩ := ppRun_append_ok hr
  obtain ⟨e1, e2, e3⟩ := after_lines w (tablesOk_setFile ht (some path)) ha r1
  rw [← e1, ← file_cond w _ t0 c e2 h0] at hc
  have hc' : w.sem.cond s1.env (ifRest t0) = false := hc
  simp only [List.map_cons, List.map_nil, isIf_classify h0, ppRun, ppStep, e3, hc'] at r2
  cases r2
  rfl

/-- After `#if` with a true condition, any well nested lines and `#else` text is skipped. -/
theorem C98_else (w : Setup) {s : St} (ht : TablesOk s) {path : Str} {a b : SBlock} (ha : a.Ok) (hb : b.Ok) {t0 t1 : Str} {c : Cond} (h0 : IsIf t0 c)
    (h1 : ∃ r, Directive t1 c%"else" r) (hc : c.holds (fileSem w) (a.run (fileSem w) (setFile s (some path))).1 = true) :
    Off w s path (a.texts ++ ([t0] ++ (b.texts ++ [t1]))) := by
  intro st os hr
  simp only [List.map_append] at hr
  obtain ⟨s1, o1, o2, r1, r2, _⟩ := ppRun_append_ok hr
  obtain ⟨e1, e2, e3⟩ := after_lines w (tablesOk_setFile ht (some path)) ha r1
  obtain ⟨s2, o3, o4, r3, r4, _⟩ := ppRun_append_ok r2
  rw [← e1, ← file_cond w _ t0 c e2 h0] at hc
  have hc' : w.sem.cond s1.env (ifRest t0) = true := hc
  simp only [List.map_cons, List.map_nil, isIf_classify h0, ppRun, ppStep, e3, hc'] at r3
  cases r3
  obtain ⟨s3, o5, o6, r5, r6, _⟩ := ppRun_append_ok r4
  rw [(sblock_lines b hb).1] at r5
  obtain ⟨_, f1, f2, _⟩ := block_live b.tree (sblock_lines b hb).2 (by simp) r5
  obtain ⟨r', h1⟩ := h1
  simp only [List.map_cons, List.map_nil, classify_else h1, ppRun, ppStep, f1, f2] at r6
  cases r6
  rfl

/-- `0` is a false condition, with any blanks. -/
theorem C98_zero (w : Setup) {s : St} (hn : NamesOk (menvOf s)) (j k : Nat) : (Cond.expr (blanks j ++ '0' :: blanks k)).holds (fileSem w) s = false := by
  have := C30_agrees_partial w.orc w.pyo (menvOf s) (.num 0) trivial trivial [(j, .num 0)] k rfl
    (fun n => ⟨C30_numbers _ _ hn.1 n, C30_numbers _ _ hn.2 n⟩) (fun _ => none) (by simp [CE.ids])
  have e : layout [(j, CTok.num 0)] ++ blanks k = blanks j ++ '0' :: blanks k := by
    simp [layout, CTok.text, show natDigits 0 = ['0'] by decide]
  rw [e] at this
  show (match condE w.orc w.pyo (menvOf s) (blanks j ++ '0' :: blanks k) with
    | .ok b => b
    | .error _ => false) = false
  rw [this]
  simp [CE.value]

/-- C98 for `#if 0` after well nested lines. -/
theorem C98_zero_partial (w : Setup) (hg : gramOk w.castGram = true)
    (hj : ∀ t t', Respaced (fun _ => none) (fun _ => none) .free ';' t t' → w.junk t = w.junk t') {s : St} (ht : TablesOk s)
    {path text text' : Str} {a d d' : SBlock} {lb : List Str} {t0 : Str} {j k : Nat} (ha : a.Ok) (hd : d.Ok) (hd' : d'.Ok)
    (h : IsSource text ((a.texts ++ [t0]) ++ (d.texts ++ lb))) (h' : IsSource text' ((a.texts ++ [t0]) ++ (d'.texts ++ lb)))
    (h0 : Directive t0 c%"if" (blanks j ++ '0' :: blanks k))
    (hpr : ∀ t ∈ (a.texts ++ [t0]) ++ lb, ∀ r, classify t ≠ .pragma r) (hl : Loose w s path (a.texts ++ [t0]) lb) :
    resultOf w s path text = resultOf w s path text' := by
  have hn := (sblock_run (P := TablesOk) (fun env t c => file_cond w env t c) (fun env t l => file_line w env t l) a ha _
    (tablesOk_setFile ht (some path))).2.2
  exact C98_file_partial w hg hj hd hd' h h' (C98_if w ht ha (.expr _ _ h0) (C98_zero w hn j k)) hpr hl

/-- `Starts`, computed. -/
def startsB (t : Str) : Bool :=
  match t.dropWhile isWhite with
  | [] => true
  | c :: _ => !c.isDigit && c != '.' && !isSign c && !isSpaceC c

theorem starts_check {t : Str} (h : startsB t = true) : Starts t := by
  intro w c r e hw hc
  have : t.dropWhile isWhite = c :: r := by
    rw [e, List.dropWhile_append_of_pos (by simpa using hw), List.dropWhile_cons_of_neg (by simp [hc])]
  simp only [startsB, this, Bool.and_eq_true, Bool.not_eq_true', bne_iff_ne] at h
  exact ⟨h.1.1.1, h.1.1.2, h.1.2, h.2⟩

/-- `Loose`, computed. -/
def looseB (w : Setup) (s : St) (path : Str) (la lb : List Str) : Bool :=
  match ppRun w.sem 0 (PPState.init (setFile s (some path))) (la.map classify) with
  | .error _ => true
  | .ok q => (joinC '\n' (q.2.map Out.text)).getLast? != some '\\' &&
    match ppRun w.sem 0 q.1 (lb.map classify) with
    | .error _ => true
    | .ok p => startsB (joinC '\n' (p.2.map Out.text)) && (joinC '\n' (p.2.map Out.text)).getLast? != some '\\'

theorem loose_check {w : Setup} {s : St} {path : Str} {la lb : List Str} (hpr : ∀ t ∈ lb, ∀ r, classify t ≠ .pragma r)
    (h : looseB w s path la lb = true) : Loose w s path la lb := by
  intro st os hr
  have hpb : ∀ l ∈ lb.map classify, ∀ r, l ≠ .pragma r := by
    intro l hm
    obtain ⟨t, ht, rfl⟩ := List.mem_map.1 hm
    exact hpr t ht
  simp only [looseB, hr, Bool.and_eq_true, bne_iff_ne] at h
  refine ⟨h.1, fun i st' os' hb => ?_⟩
  have a := ppRun_pk w.sem st (lb.map classify) hpb i 0 st
  rw [show st.withPk st = st from rfl, hb] at a
  simp only [a, Except.map, Bool.and_eq_true, bne_iff_ne] at h
  exact ⟨starts_check h.2.1, h.2.2⟩

/-- Lines that are skipped: a definition, a pragma, half a structure. -/
def deadBlock : SBlock :=
  .leaf c%"#define N 5" (.define c%"N" c%" 5") (.leaf c%"#pragma pack(1)" (.pragma c%" pack(1)") (.leaf c%"struct T {" (.code c%"struct T {") .nil))

theorem deadBlock_ok : deadBlock.Ok := by
  have b0 : Blank [] := by simp [Blank]
  have b1 : Blank [' '] := by simp [Blank]
  exact ⟨.define _ c%" N 5" _ _ ⟨[], [], b0, b0, rfl, by simp <;> decide⟩
    ⟨[' '], by simp, b1, ⟨'N', [], rfl, by decide, by simp⟩, rfl, by simp <;> decide⟩,
    .pragma _ _ ⟨[], [], b0, b0, rfl, by simp <;> decide⟩, code_leaf (by decide), trivial⟩

def deadText : Str := c%"#define N 4\nstruct T { int z; };\n#if 0\n#define N 5\n#pragma pack(1)\nstruct T {\n#else\nstruct T a[N];\n#endif"
def liveText : Str := c%"#define N 4\nstruct T { int z; };\n#if 0\n#else\nstruct T a[N];\n#endif"
def liveLines : List Str := [c%"#else", c%"struct T a[N];", c%"#endif"]

theorem C98_example :
    IsSource deadText ((splitBlock.texts ++ [c%"#if 0"]) ++ (deadBlock.texts ++ liveLines)) ∧
    IsSource liveText ((splitBlock.texts ++ [c%"#if 0"]) ++ (SBlock.nil.texts ++ liveLines)) ∧
    resultOf exSetup Store.empty c%"t.h" deadText = resultOf exSetup Store.empty c%"t.h" liveText ∧
    (fileGet deadText .variables c%"a").map Option.isSome = some true ∧ (fileGet deadText .structs c%"T").map Option.isSome = some true := by
  have b0 : Blank [] := by simp [Blank]
  have hA : IsSource deadText ((splitBlock.texts ++ [c%"#if 0"]) ++ (deadBlock.texts ++ liveLines)) :=
    plain_source (by decide) (by decide) (by decide) (by decide) (by decide) rfl (by decide) (by decide)
  have hB : IsSource liveText ((splitBlock.texts ++ [c%"#if 0"]) ++ (SBlock.nil.texts ++ liveLines)) :=
    plain_source (by decide) (by decide) (by decide) (by decide) (by decide) rfl (by decide) (by decide)
  refine ⟨hA, hB, C98_zero_partial (j := 1) (k := 0) exSetup (by decide) (fun _ _ _ => rfl) tablesOk_empty splitBlock_ok deadBlock_ok (d' := .nil) trivial
    hA hB ⟨[], [], b0, b0, rfl, by simp [blanks] <;> decide⟩ ?_ (loose_check ?_ (by decide +kernel)), by decide +kernel, by decide +kernel⟩
  · intro t ht r
    simp only [splitBlock, liveLines, SBlock.texts, List.cons_append, List.nil_append, List.mem_cons, List.not_mem_nil, or_false] at ht
    rcases ht with rfl | rfl | rfl | rfl | rfl | rfl <;> exact Line.noConfusion
  · intro t ht r
    simp only [liveLines, List.mem_cons, List.not_mem_nil, or_false] at ht
    rcases ht with rfl | rfl | rfl <;> exact Line.noConfusion

/-- With a pragma after the region, and other code in it; the region is the second branch. -/
theorem C98_lines_example :
    processFile exSetup Store.empty c%"t.h" c%"#ifndef X\nint k;\n#else\nint q;\n#endif\n#pragma pack(1)\nstruct S { char c; int x; };" =
      processFile exSetup Store.empty c%"t.h" c%"#ifndef X\nint k;\n#else\nlong r[ {\n#endif\n#pragma pack(1)\nstruct S { char c; int x; };" ∧
    filePack c%"#ifndef X\nint k;\n#else\nint q;\n#endif\n#pragma pack(1)\nstruct S { char c; int x; };" c%"S" = some (some 1) := by
  have b0 : Blank [] := by simp [Blank]
  have b1 : Blank [' '] := by simp [Blank]
  have hs := C98_else exSetup tablesOk_empty (path := c%"t.h") (a := .nil) (b := .leaf c%"int k;" (.code c%"int k;") .nil) trivial
      ⟨code_leaf (by decide), trivial⟩ (t0 := c%"#ifndef X") (t1 := c%"#else")
      (.ifndef _ c%" X" c%"X" [] ⟨[], [], b0, b0, rfl, by simp <;> decide⟩ ⟨[' '], by simp, b1, ⟨'X', [], rfl, by decide, by simp⟩, rfl, by simp⟩ b0)
      ⟨[], [], [], b0, b0, rfl, by simp⟩ rfl
  refine ⟨C98_lines exSetup (d := .leaf c%"int q;" (.code c%"int q;") .nil) (d' := .leaf c%"long r[ {" (.code c%"long r[ {") .nil)
    (lb := [c%"#endif", c%"#pragma pack(1)", c%"struct S { char c; int x; };"]) ⟨code_leaf (by decide), trivial⟩ ⟨code_leaf (by decide), trivial⟩
    (plain_source (by decide) (by decide) (by decide) (by decide) (by decide) rfl (by decide) (by decide))
    (plain_source (by decide) (by decide) (by decide) (by decide) (by decide) rfl (by decide) (by decide)) hs rfl ?_, by decide +kernel⟩
  intro t ht
  simp only [SBlock.texts, List.cons_append, List.nil_append, List.mem_cons, List.not_mem_nil, or_false] at ht
  rcases ht with rfl | rfl <;> exact ⟨fun _ _ => Line.noConfusion, fun _ => Line.noConfusion, fun _ => Line.noConfusion⟩

/-- C98 fails for a badly written definition: it raises although it is skipped. -/
theorem C98_counterexample_define :
    (fileGet c%"#if 0\n#define\n#endif\nint i;" .variables c%"i").map Option.isSome = none ∧
    (fileGet c%"#if 0\n#endif\nint i;" .variables c%"i").map Option.isSome = some true := ⟨by decide +kernel, by decide +kernel⟩

/-- C98 fails with pragmas after the region: definitions that are skipped move the lines where packings begin. -/
theorem C98_counterexample_pack :
    filePack c%"#if 0\n#define A 1\n#define B 2\n#define C 3\n#endif\nint j;\n#pragma pack(1)\nstruct S { char c; int x; };\n\n#pragma pack()" c%"S" = some none ∧
    filePack c%"#if 0\n#endif\nint j;\n#pragma pack(1)\nstruct S { char c; int x; };\n\n#pragma pack()" c%"S" = some (some 1) :=
  ⟨by decide +kernel, by decide +kernel⟩

end Pyclib
