import Verif.Proof.Relaid
import Verif.Props.Respace
import Verif.Props.Macro
/-! Theorems about files that are laid out differently (C92). -/
namespace Pyclib
open Spec

/-- The tables hold macros, and their macros have the property `Q`. -/
def MacroProp (Q : MEnv → Prop) (s : Store DefVal) : Prop := MacOk s ∧ Q (menvOf s)

/-- What a file makes of the tables, or its error. -/
def resultOf (w : Setup) (s : Store DefVal) (path text : Str) : Except PyErr (Store DefVal) :=
  (processFile w s path text).map (·.1)

theorem relaid_pre (w : Setup) {P : Store DefVal → Prop} {s : Store DefVal} (hP : P s) {text text' : Str}
    (h : Relaid w.sem P text text') :
    (∃ e, preprocess w.sem s (removeComments text) = .error e ∧ preprocess w.sem s (removeComments text') = .error e) ∨
    ∃ S out out', preprocess w.sem s (removeComments text) = .ok (S, out) ∧ preprocess w.sem s (removeComments text') = .ok (S, out') ∧
      P S.env ∧ S.packList = [(0, none)] ∧ Resp .free ' ' out out' := by
  obtain ⟨ps, h1, h2, hps⟩ := h
  have := relaid_run (sem := w.sem) ps hps 0 0 (PPState.init s) hP ⟨fun _ => rfl, trivial⟩
  simp only [preprocess, source_lines h1, source_lines h2]
  cases hr : ppRun w.sem 0 (PPState.init s) ((ps.flatMap Part.lines).map classify) with
  | error e =>
    cases hr' : ppRun w.sem 0 (PPState.init s) ((ps.flatMap Part.lines').map classify) with
    | error e' =>
      simp only [hr, hr', SameRun] at this
      exact .inl ⟨e, rfl, by rw [this]⟩
    | ok r' => simp only [hr, hr', SameRun] at this
  | ok r =>
    cases hr' : ppRun w.sem 0 (PPState.init s) ((ps.flatMap Part.lines').map classify) with
    | error e' => simp only [hr, hr', SameRun] at this
    | ok r' =>
      simp only [hr, hr', SameRun] at this
      obtain ⟨e, hp, hk, ha⟩ := this
      exact .inr ⟨r.1, _, _, rfl, by rw [e], hp, hk, resp_out ha⟩

theorem gram_none (w : Setup) (out : Str) : w.gram [(0, none)] out = ⟨w.cfg, w.mods, w.ev, fun _ => none, w.junk⟩ := by
  simp [Setup.gram, structPacking, packingAt, packingAtFrom]

/-- C92: a file with the same directives and the same text, but for comments, continued lines and white space, leads to the same tables or to
the same error, and the tables keep the property `P`. -/
theorem C92_file_partial (w : Setup) (hg : gramOk w.castGram = true) {P : Store DefVal → Prop} {s : Store DefVal} {path text text' : Str}
    (hP : P (setFile s (some path))) (hj : ∀ t t', Respaced (fun _ => none) (fun _ => none) .free ';' t t' → w.junk t = w.junk t')
    (h : Relaid w.sem P text text') : resultOf w s path text = resultOf w s path text' := by
  unfold resultOf processFile
  rcases relaid_pre w hP h with ⟨e, h1, h2⟩ | ⟨S, out, out', h1, h2, _, hk, hr⟩
  · rw [h1, h2]
  · rw [h1, h2]
    simp only [hk, gram_none]
    rw [C59_blanks_partial (g := ⟨w.cfg, w.mods, w.ev, fun _ => none, w.junk⟩) hg rfl S.env hj hr]
    split <;> rfl

/-- After a file. -/
theorem relaid_keeps (w : Setup) {Q : MEnv → Prop} {s s' : Store DefVal} {path text text' out : Str}
    (hP : MacroProp Q (setFile s (some path))) (h : Relaid w.sem (MacroProp Q) text text')
    (he : processFile w s path text = .ok (s', out)) : MacroProp Q s' := by
  unfold processFile at he
  rcases relaid_pre w hP h with ⟨e, h1, h2⟩ | ⟨S, o, o', h1, h2, hp, hk, hr⟩
  · rw [h1] at he; cases he
  · rw [h1] at he
    simp only at he
    have ha := adds_parseDefs (w.gram S.packList o) S.env o
    split at he
    · rename_i s1 e1
      cases he
      rw [e1] at ha
      obtain ⟨m1, m2, _⟩ := adds_macros ha
      simp only at m1 m2
      exact ⟨⟨m1 ▸ hp.1.1, m2 ▸ hp.1.2⟩, by unfold menvOf; rw [m1, m2]; exact hp.2⟩
    · cases he

/-- C92 for all files of a parser. -/
theorem C92_all_partial (w : Setup) (hg : gramOk w.castGram = true) {Q : MEnv → Prop}
    (hj : ∀ t t', Respaced (fun _ => none) (fun _ => none) .free ';' t t' → w.junk t = w.junk t') {fs fs' : List (Str × Str)}
    (h : RelaidAll w.sem (MacroProp Q) fs fs') : ∀ {s : Store DefVal}, MacroProp Q s → processFiles w s fs = processFiles w s fs' := by
  induction h with
  | nil => exact fun _ => rfl
  | cons path text text' fs fs' h _ ih =>
    intro s hs
    have hs' : MacroProp Q (setFile s (some path)) := ⟨⟨hs.1.1, hs.1.2⟩, hs.2⟩
    have e := C92_file_partial w hg hs' hj h
    unfold resultOf at e
    simp only [processFiles]
    cases h1 : processFile w s path text with
    | error e1 =>
      cases h2 : processFile w s path text' with
      | error e2 => rw [h1, h2] at e; simpa [Except.map] using e
      | ok r => rw [h1, h2] at e; simp [Except.map] at e
    | ok r =>
      cases h2 : processFile w s path text' with
      | error e2 => rw [h1, h2] at e; simp [Except.map] at e
      | ok r' =>
        rw [h1, h2] at e
        simp only [Except.map, Except.ok.injEq] at e
        simp only [e]
        exact ih (by rw [← e]; exact relaid_keeps w hs' h (out := r.2) h1)

/-- The names of macros are among `N`. -/
def Among (N : Str → Prop) (m : MEnv) : Prop := ∀ x, ¬ N x → dget m.macros x = none ∧ dget m.fnmacros x = none

theorem free_expand (w : Setup) {N : Str → Prop} {s : Store DefVal} (hs : MacroProp (Among N) s) {l : Str} (h : FreeOf N l) :
    w.sem.expand s l = l :=
  C23_unchanged_partial (orc := w.orc) (env := menvOf s) l (fun x hx => hs.2 x (h.1 x hx))
    (h.2.imp id fun h c hc => (hs.2 [c] (h c hc)).1)

theorem among_define {N : Str → Prop} {m : MEnv} (h : Among N m) {x : Str} (hx : N x) (r : Str) : Among N (defineMacro m x r) := by
  intro y hy
  have hne : x ≠ y := by rintro rfl; exact hy hx
  unfold defineMacro
  simp only
  split
  · exact ⟨(h y hy).1, by rw [dget_dset_ne _ _ hne]; exact (h y hy).2⟩
  · split
    · exact ⟨by rw [dget_dset_ne _ _ hne]; exact (h y hy).1, (h y hy).2⟩
    · exact ⟨(h y hy).1, by rw [dget_dset_ne _ _ hne]; exact (h y hy).2⟩

theorem among_undef {N : Str → Prop} {m : MEnv} (h : Among N m) (x : Str) : Among N (undefMacro m x) := by
  intro y hy
  refine ⟨?_, (h y hy).2⟩
  simp only [undefMacro, dget_ddel]
  split
  · rfl
  · exact (h y hy).1

theorem plain_ok (w : Setup) {N : Str → Prop} {p : Part} (h : p.Plain N) : p.Ok w.sem (MacroProp (Among N)) := by
  cases p with
  | dir t =>
    rcases h with ⟨rest, x, body, h1, h2, h3⟩ | ⟨rest, x, after, h1, h2⟩ | ⟨rest, h1, h2, h3⟩ | ⟨kw, rest, h1, h2, h3, h4⟩
    · refine .define t rest x body h1 h2 (fun e he => ?_)
      obtain ⟨e1, e2⟩ := menv_define he.1 w.ev x (w.sem.expand e body)
      exact ⟨e2, by
        show Among N (menvOf (defineIn w.ev e x (w.sem.expand e body)))
        rw [e1]; exact among_define he.2 h3 _⟩
    · refine .undef t rest x after h1 h2 (fun e he => ?_)
      obtain ⟨e1, e2⟩ := menv_undef he.1 x
      exact ⟨e2, by
        show Among N (menvOf (remDef e .macros x).1)
        rw [e1]; exact among_undef he.2 x⟩
    · exact .pragma t rest h1 (fun e he => by rw [free_expand w he h2]; exact h3)
    · exact .other t kw rest h1 h2 h3 h4
  | code ls ls' =>
    obtain ⟨h1, h2, h3, h4, h5⟩ := h
    refine ⟨h1, h2, h3, fun e he => ?_⟩
    have hm : ∀ l : List Str, (∀ x ∈ l, x ∈ ls ++ ls') → l.map (w.sem.expand e) = l := fun l hl =>
      (List.map_congr_left fun x hx => free_expand w he (h4 x (hl x hx))).trans (List.map_id l)
    rw [hm ls (fun x hx => by simp [hx]), hm ls' (fun x hx => by simp [hx])]
    exact h5

/-- C92 for files whose text is free of names of macros: comments and layout do not matter. -/
theorem C92_plain_partial (w : Setup) (hg : gramOk w.castGram = true) {N : Str → Prop} {s : Store DefVal} (hs : MacOk s)
    (hN : ∀ x, ¬ N x → dget (s.defs .macros) x = none ∧ dget (s.defs .fnmacros) x = none)
    (hj : ∀ t t', Respaced (fun _ => none) (fun _ => none) .free ';' t t' → w.junk t = w.junk t') {path text text' : Str} (ps : List Part)
    (h : IsSource text (ps.flatMap Part.lines)) (h' : IsSource text' (ps.flatMap Part.lines')) (hps : ∀ p ∈ ps, p.Plain N) :
    resultOf w s path text = resultOf w s path text' := by
  refine C92_file_partial w hg (P := MacroProp (Among N)) ⟨⟨hs.1, hs.2⟩, fun x hx => ?_⟩ hj ⟨ps, h, h', fun p hp => plain_ok w (hps p hp)⟩
  show dget (menvOf s).macros x = none ∧ dget (menvOf s).fnmacros x = none
  rw [mac_get hs, fn_get hs, (hN x hx).1, (hN x hx).2]
  exact ⟨rfl, rfl⟩

/-! ### An example -/

def laidA : Str := c%"/* a header */\n#ifndef H\n#define H\n#define N 4\nstruct S{int a[N];char*p;}; // sizes\nchar t[]=\"x  y\";\n#endif"

def laidB : Str :=
  c%"\n#ifndef H\n#define H\n#define N 4\n\nstruct S\n{\n  int a [ N ]; /* elements */\n  char * p ;\n} ;\nchar \\\n t [ ] = \"x  y\" ;\n// end\n#endif"

def laidParts : List Part :=
  [.code [[]] [[]], .dir c%"#ifndef H", .dir c%"#define H", .dir c%"#define N 4",
   .code [c%"struct S{int a[N];char*p;}; ", c%"char t[]=\"x  y\";"]
     [[], c%"struct S", c%"{", c%"  int a [ N ]; ", c%"  char * p ;", c%"} ;", c%"char  t [ ] = \"x  y\" ;", []],
   .dir c%"#endif"]

/-- The macros that there may be. -/
def laidMacros (m : MEnv) : Prop :=
  m.fnmacros = [] ∧ m.macros ∈ [[], [(c%"H", [])], [(c%"N", c%"4")], [(c%"H", []), (c%"N", c%"4")], [(c%"N", c%"4"), (c%"H", [])]]

theorem laidDefine (w : Setup) {x body : Str} (h : ∀ m, laidMacros m → laidMacros (defineMacro m x (expandMacros w.orc m body))) (e : Store DefVal)
    (he : MacroProp laidMacros e) : MacroProp laidMacros (w.sem.define e x (w.sem.expand e body)) := by
  obtain ⟨e1, e2⟩ := menv_define he.1 w.ev x (w.sem.expand e body)
  exact ⟨e2, by
    show laidMacros (menvOf (defineIn w.ev e x (w.sem.expand e body)))
    rw [e1]; exact h _ he.2⟩

theorem laidParts_ok : ∀ p ∈ laidParts, p.Ok exSetup.sem (MacroProp laidMacros) := by
  have b0 : Blank [] := by simp [Blank]
  have b1 : Blank [' '] := by simp [Blank]
  have noHash : ∀ l ∈ [c%"struct S{int a[N];char*p;}; ", c%"char t[]=\"x  y\";"] ++
     [[], c%"struct S", c%"{", c%"  int a [ N ]; ", c%"  char * p ;", c%"} ;", c%"char  t [ ] = \"x  y\" ;", []],
     ∀ a r, l = a ++ '#' :: r → ∃ c ∈ a, isSpaceC c = false := by
    intro l hl a r e
    have : '#' ∉ l := (by decide : ∀ l ∈ _, '#' ∉ l) l hl
    rw [e] at this
    simp at this
  intro p hp
  simp only [laidParts, List.mem_cons, List.not_mem_nil, or_false] at hp
  rcases hp with rfl | rfl | rfl | rfl | rfl | rfl
  · refine ⟨by simp, by simp, ?_, fun e he => ⟨.tail _ _ _ _ rfl rfl, ?_, (by decide : ([] : Str).getLast? ≠ some '\\'), (by decide : ([] : Str).getLast? ≠ some '\\')⟩⟩
    · intro l hl a r e
      simp at hl
      simp [hl] at e
    · intro a c r e
      have e : [] = a ++ c :: r := e
      simp at e
  · exact .other _ c%"ifndef" c%" H" ⟨[], [], b0, b0, rfl, by decide⟩ (by decide) (by decide) (by decide)
  · refine .define _ c%" H" c%"H" [] ⟨[], [], b0, b0, rfl, by decide⟩
      ⟨[' '], by decide, b1, ⟨'H', [], rfl, rfl, by simp⟩, rfl, by simp⟩ (laidDefine exSetup ?_)
    rintro ⟨m, f⟩ ⟨rfl, hm⟩
    simp only [List.mem_cons, List.not_mem_nil, or_false] at hm
    rcases hm with rfl | rfl | rfl | rfl | rfl <;> exact ⟨rfl, by decide⟩
  · refine .define _ c%" N 4" c%"N" c%" 4" ⟨[], [], b0, b0, rfl, by decide⟩
      ⟨[' '], by decide, b1, ⟨'N', [], rfl, rfl, by simp⟩, rfl, by simp; rfl⟩ (laidDefine exSetup ?_)
    rintro ⟨m, f⟩ ⟨rfl, hm⟩
    simp only [List.mem_cons, List.not_mem_nil, or_false] at hm
    rcases hm with rfl | rfl | rfl | rfl | rfl <;> exact ⟨rfl, by decide⟩
  · refine ⟨by simp, by simp, noHash, ?_⟩
    intro e he
    have : ∀ m, laidMacros m → SameText
      (joinC '\n' ([c%"struct S{int a[N];char*p;}; ", c%"char t[]=\"x  y\";"].map (expandMacros exSetup.orc m)))
      (joinC '\n' ([[], c%"struct S", c%"{", c%"  int a [ N ]; ", c%"  char * p ;", c%"} ;", c%"char  t [ ] = \"x  y\" ;", []].map
        (expandMacros exSetup.orc m))) := by
      rintro ⟨m, f⟩ ⟨rfl, hm⟩
      have st : ∀ r, Starts ('s' :: r) := by
        intro r a c r' e ha hc
        cases a with
        | nil => simp at e; obtain ⟨rfl, _⟩ := e; decide
        | cons d a =>
          simp at e
          obtain ⟨rfl, _⟩ := e
          simp at ha
          exact absurd ha.1 (by decide)
      simp only [List.mem_cons, List.not_mem_nil, or_false] at hm
      rcases hm with rfl | rfl | rfl | rfl | rfl <;>
        exact ⟨respB_sound 200 _ _ _ _ (by decide +kernel), st _, by decide +kernel, by decide +kernel⟩
    exact this _ he.2
  · exact .other _ c%"endif" [] ⟨[], [], b0, b0, rfl, by decide⟩ (by decide) (by decide) (by decide)

theorem laidA_source : IsSource laidA (laidParts.flatMap Part.lines) := by
  refine ⟨[.block c%" a header ", .code c%"\n#ifndef H\n#define H\n#define N 4\nstruct S{int a[N];char*p;}; ", .line c%" sizes",
    .code c%"\nchar t[]=", .lits '"' [.chr 'x', .chr ' ', .chr ' ', .chr 'y'] [], .code c%";\n#endif"],
    [c%"\n#ifndef H\n#define H\n#define N 4\nstruct S{int a[N];char*p;}; \nchar t[]=\"x  y\";\n#endif"],
    ?_, rfl, ?_, ?_, ?_, rfl, rfl, by decide, by decide⟩
  · refine ⟨?_, trivial, codeOk_of (by decide), fun h => absurd h (by decide), by simp [Seg.Ok], ?_, codeOk_of (by decide),
      fun h => absurd h (by decide), ⟨.inl rfl, by simp [Item.Ok], by simp⟩, by simp [Seg.Fits, Seg.text], codeOk_of (by decide),
      fun h => absurd h (by decide), trivial⟩
    · intro a b
      exact hasPiece_false (t := ['*', '/']) a b (by decide)
    · intro c hc
      simpa [Seg.text] using hc.symm
  · exact ⟨.inl rfl, trivial, .inl rfl, trivial, trivial, trivial, trivial⟩
  · refine ⟨?_, ?_⟩
    · rintro a b c (rfl | rfl)
      · exact hasPiece_false (t := ['/', '\\', '\n']) a b (by decide)
      · exact hasPiece_false (t := ['*', '\\', '\n']) a b (by decide)
    · intro s hs
      simp at hs
      rw [hs]
      decide
  · intro p hp
    simp only [List.mem_cons, List.not_mem_nil, or_false] at hp
    rw [hp]
    exact noCont_of (by decide)

theorem laidB_source : IsSource laidB (laidParts.flatMap Part.lines') := by
  refine ⟨[.code c%"\n#ifndef H\n#define H\n#define N 4\n\nstruct S\n{\n  int a [ N ]; ", .block c%" elements ",
    .code c%"\n  char * p ;\n} ;\nchar \\\n t [ ] = ", .lits '"' [.chr 'x', .chr ' ', .chr ' ', .chr 'y'] [], .code c%" ;\n", .line c%" end",
    .code c%"\n#endif"],
    [c%"\n#ifndef H\n#define H\n#define N 4\n\nstruct S\n{\n  int a [ N ]; \n  char * p ;\n} ;\nchar ", c%" t [ ] = \"x  y\" ;\n\n#endif"],
    ?_, rfl, ?_, ?_, ?_, rfl, rfl, by decide, by decide⟩
  · refine ⟨codeOk_of (by decide), fun h => absurd h (by decide), ?_, trivial, codeOk_of (by decide), fun h => absurd h (by decide),
      ⟨.inl rfl, by simp [Item.Ok], by simp⟩, by simp [Seg.Fits, Seg.text], codeOk_of (by decide), fun h => absurd h (by decide),
      by simp [Seg.Ok], ?_, codeOk_of (by decide), fun h => absurd h (by decide), trivial⟩
    · intro a b
      exact hasPiece_false (t := ['*', '/']) a b (by decide)
    · intro c hc
      simpa [Seg.text] using hc.symm
  · exact ⟨trivial, .inl rfl, trivial, trivial, trivial, .inl rfl, trivial, trivial⟩
  · refine ⟨?_, ?_⟩
    · rintro a b c (rfl | rfl)
      · exact hasPiece_false (t := ['/', '\\', '\n']) a b (by decide)
      · exact hasPiece_false (t := ['*', '\\', '\n']) a b (by decide)
    · intro s hs
      simp at hs
      rw [hs]
      decide
  · intro p hp
    simp only [List.mem_cons, List.not_mem_nil, or_false] at hp
    rcases hp with rfl | rfl <;> exact noCont_of (by decide)

/-- Non-vacuity: two layouts of a header with a guard, a macro that is used, comments, a string, and a continued line. -/
theorem C92_example : gramOk exSetup.castGram = true ∧ MacroProp laidMacros (setFile Store.empty (some c%"t.h")) ∧
    Relaid exSetup.sem (MacroProp laidMacros) laidA laidB ∧ resultOf exSetup Store.empty c%"t.h" laidA = resultOf exSetup Store.empty c%"t.h" laidB ∧
    (fileGet laidA .structs c%"S").map Option.isSome = some true ∧ (fileGet laidB .variables c%"t").map Option.isSome = some true := by
  have h1 : MacroProp laidMacros (setFile Store.empty (some c%"t.h")) := ⟨⟨(fun p hp => nomatch hp), (fun p hp => nomatch hp)⟩, rfl, by decide⟩
  have h2 : Relaid exSetup.sem (MacroProp laidMacros) laidA laidB := ⟨laidParts, laidA_source, laidB_source, laidParts_ok⟩
  exact ⟨by decide, h1, h2, C92_file_partial exSetup (by decide) h1 (fun _ _ _ => rfl) h2, by decide +kernel, by decide +kernel⟩

/-- C92 fails for a call of a function-like macro on two lines, which is not replaced. -/
theorem C92_counterexample_call :
    (fileGet c%"#define F(a,b) int a; char b;\nF(x, y)" .variables c%"y").map Option.isSome = some true ∧
    fileGet c%"#define F(a,b) int a; char b;\nF(x,\n y)" .variables c%"y" = some none := ⟨by rfl, by rfl⟩

end Pyclib
