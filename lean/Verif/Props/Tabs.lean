import Verif.Proof.TabMacro
/-! C94: tabs are white space, although pyparsing replaces them by blanks before it reads a text. -/
namespace Pyclib
open Spec

/-- None of the names is the name of a macro. -/
def NoNames (names : List Str) (m : MEnv) : Prop := ∀ p ∈ names, dget m.macros p = none ∧ dget m.fnmacros p = none

/-- The macros have no tabs, and none is called like a parameter. -/
def TabEnv (names : List Str) (m : MEnv) : Prop := NoTabs m ∧ NoNames names m

theorem skipBlank_tabs {w s : Str} (h : TabBlank w) : skipBlank (w ++ s) = skipBlank s := by
  unfold skipBlank
  induction w with
  | nil => rfl
  | cons c w ih =>
    have : (fun c : Char => decide (c = ' ') || decide (c = '\t')) c = true := by rcases h c (by simp) with rfl | rfl <;> decide
    rw [List.cons_append, List.dropWhile_cons_of_pos (p := fun c : Char => decide (c = ' ') || decide (c = '\t')) this]
    exact ih (fun d hd => h d (by simp [hd]))

theorem tabBlank_word {w : Str} {c : Char} {t : Str} (h : TabBlank w) (hc : isWordC c = false) : ∀ d ∈ (w ++ c :: t).head?, isWordC d = false := by
  cases w with
  | nil => simp [hc]
  | cons d w =>
    intro e he
    simp at he
    subst he
    exact (tabBlank_copy h d (by simp)).1

theorem identTok_at {w x r : Str} (hw : TabBlank w) (hx : IsIdent x) (hr : ∀ c ∈ r.head?, isWordC c = false) :
    identTok (w ++ (x ++ r)) = some (x, r) := by
  obtain ⟨c, y, rfl, h1, h2⟩ := hx
  have h0 : skipBlank (w ++ (c :: y ++ r)) = c :: (y ++ r) := by
    rw [skipBlank_tabs hw]
    have : (c = ' ' || c = '\t') = false := by
      cases h : (c = ' ' || c = '\t' : Bool) with
      | false => rfl
      | true =>
        simp at h
        rcases h with rfl | rfl <;> exact absurd h1 (by decide)
    exact List.dropWhile_cons_of_neg (by simpa using this)
  unfold identTok
  rw [h0]
  obtain ⟨h3, h4⟩ := takeWhile_split h2 hr
  simp only [h1, if_true, h3, h4]

theorem paramText_more {ps : List Str} {t : Str} (h : ParamText ps t) (z : Str) :
    ∃ x r, identTok (t ++ z) = some (x, r) ∧ ∃ n, (moreParams n r).map (fun p => (x :: p.1, p.2)) = some (ps, z) := by
  induction h with
  | last w x w' hw hx hw' =>
    refine ⟨x, w' ++ ')' :: z, ?_, 1, ?_⟩
    · have := identTok_at (r := w' ++ ')' :: z) hw hx (tabBlank_word hw' (by decide))
      simpa using this
    · have h3 : skipBlank (w' ++ ')' :: z) = ')' :: z := by rw [skipBlank_tabs hw']; rfl
      rw [moreParams, h3]
      rfl
  | more w x w' t ps hw hx hw' h ih =>
    obtain ⟨x2, r2, h1, n, h2⟩ := ih
    refine ⟨x, w' ++ ',' :: (t ++ z), ?_, n + 1, ?_⟩
    · have := identTok_at (r := w' ++ ',' :: (t ++ z)) hw hx (tabBlank_word hw' (by decide))
      simpa using this
    · have h3 : skipBlank (w' ++ ',' :: (t ++ z)) = ',' :: (t ++ z) := by rw [skipBlank_tabs hw']; rfl
      rw [moreParams, h3]
      simp only [h1, h2]
      rfl

theorem moreParams_more : ∀ (n : Nat) {m : Nat} {s : Str} {p : List Str × Str}, moreParams n s = some p → n ≤ m → moreParams m s = some p := by
  intro n
  induction n with
  | zero => intro m s p h; cases h
  | succ n ih =>
    intro m s p h hm
    obtain ⟨m, rfl⟩ : ∃ k, m = k + 1 := ⟨m - 1, by omega⟩
    rw [moreParams] at h ⊢
    split at h
    · exact h
    · split at h
      · cases h
      · rename_i x r e
        rw [Option.map_eq_some_iff] at h
        obtain ⟨q, h1, h2⟩ := h
        simp only [e, ih h1 (show n ≤ m by omega), Option.map_some, h2]
    · cases h

theorem paramText_list {ps : List Str} {w t : Str} (hw : TabBlank w) (h : ParamText ps t) (z : Str) :
    paramList (w ++ '(' :: (t ++ z)) = some (ps, z) := by
  obtain ⟨x, r, h1, n, h2⟩ := paramText_more h z
  have h3 : skipBlank (w ++ '(' :: (t ++ z)) = '(' :: (t ++ z) := by rw [skipBlank_tabs hw]; rfl
  unfold paramList
  rw [h3]
  simp only [h1]
  rw [Option.map_eq_some_iff] at h2
  obtain ⟨q, h4, h5⟩ := h2
  rw [moreParams_fuel (r.length + 1) (n + r.length + 1) r (by omega) (by omega), moreParams_more n h4 (by omega)]
  exact congrArg some h5

theorem expand_params (orc : Str → List Str → Option Str) {m : MEnv} {ps : List Str} {t : Str} (h : ParamText ps t)
    (hp : ∀ p ∈ ps, dget m.macros p = none ∧ dget m.fnmacros p = none) (z : Str) : expandMacros orc m (t ++ z) = t ++ expandMacros orc m z := by
  have word : ∀ x r, IsIdent x → (∀ c ∈ r.head?, isWordC c = false) → dget m.macros x = none → dget m.fnmacros x = none →
      expandMacros orc m (x ++ r) = x ++ expandMacros orc m r := by
    intro x r hx hr h1 h2
    obtain ⟨c, y, rfl, h3, h4⟩ := hx
    have := findTok_wd (w := c :: y) (r := r) (by simp) (by
      intro d hd
      rcases List.mem_cons.1 hd with rfl | hd
      · obtain ⟨c', r', e, _, hw, _⟩ := ident_first (w := d :: y) ⟨d, y, rfl, h3, h4⟩
        cases e; exact hw
      · exact h4 d hd) hr
    rw [expand_plain orc m this h1 h2]
    rfl
  induction h with
  | last w x w' hw hx hw' =>
    obtain ⟨h1, h2⟩ := hp x (by simp)
    have h3 : ∀ c ∈ w' ++ [')'], isWordC c = false ∧ c ≠ '"' := by
      intro c hc
      rcases List.mem_append.1 hc with hc | hc
      · exact tabBlank_copy hw' c hc
      · simp at hc; subst hc; decide
    have e : w ++ (x ++ (w' ++ [')'])) ++ z = w ++ (x ++ ((w' ++ [')']) ++ z)) := by simp
    rw [e, expand_prefix orc m (tabBlank_copy hw), word x _ hx (by simpa using tabBlank_word (t := z) hw' (c := ')') (by decide)) h1 h2,
      expand_prefix orc m h3]
    simp
  | more w x w' t ps hw hx hw' h ih =>
    obtain ⟨h1, h2⟩ := hp x (by simp)
    have h3 : ∀ c ∈ w' ++ [','], isWordC c = false ∧ c ≠ '"' := by
      intro c hc
      rcases List.mem_append.1 hc with hc | hc
      · exact tabBlank_copy hw' c hc
      · simp at hc; subst hc; decide
    have e : w ++ (x ++ (w' ++ ',' :: t)) ++ z = w ++ (x ++ ((w' ++ [',']) ++ (t ++ z))) := by simp
    rw [e, expand_prefix orc m (tabBlank_copy hw), word x _ hx (by simpa using tabBlank_word (t := t ++ z) hw' (c := ',') (by decide)) h1 h2,
      expand_prefix orc m h3, ih (fun p hp' => hp p (by simp [hp']))]
    simp

/-- Neither the text behind the name of a macro nor what its expansion makes of it has a tab in the value. -/
theorem tabDef_value {orc : Str → List Str → Option Str} (ho : FormatTabs orc) {names : List Str} {m : MEnv} (hm : TabEnv names m) {r : Str}
    (h : TabDef names r) : '\t' ∉ (parseDefine r).2 ∧ '\t' ∉ (parseDefine (expandMacros orc m r)).2 := by
  cases h with
  | object _ h =>
    have := TabEdge.of h
    exact ⟨edge_value this, edge_value (this.expand ho hm.1)⟩
  | func w t r ps hw ht hp h =>
    have he := TabEdge.of h
    have h1 : expandMacros orc m (w ++ '(' :: (t ++ r)) = w ++ '(' :: (t ++ expandMacros orc m r) := by
      have e : w ++ '(' :: (t ++ r) = (w ++ ['(']) ++ (t ++ r) := by simp
      rw [e, expand_prefix orc m, expand_params orc ht (fun p hp' => hm.2 p (hp p hp'))]
      · simp
      · intro c hc
        rcases List.mem_append.1 hc with hc | hc
        · exact tabBlank_copy hw c hc
        · simp at hc; subst hc; decide
    have h2 : ∀ z, TabEdge z → '\t' ∉ (parseDefine (w ++ '(' :: (t ++ z))).2 := by
      intro z hz
      unfold parseDefine
      rw [paramText_list hw ht z]
      exact hz.strip
    exact ⟨h2 r he, h1 ▸ h2 _ (he.expand ho hm.1)⟩

theorem tabEnv_define {names : List Str} {m : MEnv} (hm : TabEnv names m) {n r : Str} (hn : n ∉ names) (hr : '\t' ∉ (parseDefine r).2) :
    TabEnv names (defineMacro m n r) := by
  have key : ∀ {α : Type} (d : Dict Str α) (v : α) (P : α → Prop), (∀ k x, dget d k = some x → P x) → P v →
      ∀ k x, dget (dset d n v) k = some x → P x := by
    intro α d v P h hv k x hk
    rw [dget_dset] at hk
    split at hk
    · cases hk; exact hv
    · exact h k x hk
  have key2 : ∀ {α : Type} (d : Dict Str α) (v : α), ∀ p ∈ names, dget d p = none → dget (dset d n v) p = none := by
    intro α d v p hp h
    rw [dget_dset_ne _ _ (by rintro rfl; exact hn hp)]
    exact h
  unfold defineMacro
  simp only
  split
  · rename_i f hf
    exact ⟨⟨hm.1.1, key _ f (fun v => '\t' ∉ v.1) hm.1.2 (hm.1.2 _ _ hf)⟩, fun p hp => ⟨(hm.2 p hp).1, key2 _ _ p hp (hm.2 p hp).2⟩⟩
  · split
    · exact ⟨⟨key _ _ (fun v => '\t' ∉ v) hm.1.1 hr, hm.1.2⟩, fun p hp => ⟨key2 _ _ p hp (hm.2 p hp).1, (hm.2 p hp).2⟩⟩
    · exact ⟨⟨hm.1.1, key m.fnmacros _ (fun v : Str × List Nat => '\t' ∉ v.1) hm.1.2 (compileLoop_mem (by decide) _ _ _ hr)⟩,
        fun p hp => ⟨(hm.2 p hp).1, key2 _ _ p hp (hm.2 p hp).2⟩⟩

theorem tabEnv_undef {names : List Str} {m : MEnv} (hm : TabEnv names m) (n : Str) : TabEnv names (undefMacro m n) := by
  have key : ∀ k, dget (ddel m.macros n) k = none ∨ dget (ddel m.macros n) k = dget m.macros k := by
    intro k
    by_cases h : n = k
    · subst h; exact .inl (dget_ddel_self _ _)
    · exact .inr (dget_ddel_ne _ h)
  refine ⟨⟨?_, hm.1.2⟩, fun p hp => ⟨?_, (hm.2 p hp).2⟩⟩
  · intro k v h
    rcases key k with e | e
    · rw [undefMacro, e] at h; cases h
    · rw [undefMacro, e] at h; exact hm.1.1 k v h
  · rcases key p with e | e
    · exact e
    · exact e.trans (hm.2 p hp).1

/-- A line whose tabs do not matter to `#define`. -/
def TabLine (names : List Str) : Line → Prop
  | .define n r => n ∉ names ∧ TabDef names r
  | _ => True

theorem tab_step (w : Setup) (ho : FormatTabs w.orc) {names : List Str} {i : Nat} {s : PPState (Store DefVal)} (hs : MacroProp (TabEnv names) s.env)
    {l : Line} (hl : TabLine names l) : ppStep w.semTab i s l = ppStep w.sem i s l ∧
      ∀ s' o, ppStep w.sem i s l = .ok (s', o) → MacroProp (TabEnv names) s'.env := by
  cases l with
  | define n r =>
    obtain ⟨hn, hr⟩ := hl
    obtain ⟨h1, h2⟩ := tabDef_value ho hs.2 hr
    have h3 : '\t' ∉ (parseDefine (expandMacros w.orc (menvOf s.env) r)).2 := h2
    have h4 : ∀ r', '\t' ∉ (parseDefine r').2 → w.semTab.define s.env n r' = w.sem.define s.env n r' ∧ MacroProp (TabEnv names) (w.sem.define s.env n r') := by
      intro r' h
      refine ⟨?_, ?_⟩
      · show defineIn w.ev s.env n (expandTabs (n.length + 1) r') = defineIn w.ev s.env n r'
        unfold defineIn
        rw [parseDefine_exp h]
      · obtain ⟨e1, e2⟩ := menv_define hs.1 w.ev n r'
        refine ⟨e2, ?_⟩
        show TabEnv names (menvOf (defineIn w.ev s.env n r'))
        rw [e1]
        exact tabEnv_define hs.2 hn h
    have h5 : ∀ ts : List Bool, '\t' ∉ (parseDefine (if ts.all id then w.sem.expand s.env r else r)).2 := by
      intro ts
      split
      · exact h3
      · exact h1
    cases hT : s.ifTrue with
    | nil => simp [ppStep, hT]
    | cons b ts =>
      cases b with
      | false =>
        refine ⟨by simp [ppStep, hT], fun s' o h => ?_⟩
        simp only [ppStep, hT] at h
        cases h
        exact hs
      | true =>
        obtain ⟨e1, e2⟩ := h4 _ (h5 ts)
        have e1' : w.semTab.define s.env n (if ts.all id then w.semTab.expand s.env r else r) =
            w.sem.define s.env n (if ts.all id then w.sem.expand s.env r else r) := e1
        refine ⟨?_, fun s' o h => ?_⟩
        · simp only [ppStep, hT]
          rw [e1']
        · simp only [ppStep, hT] at h
          cases h
          exact e2
  | undef n =>
    refine ⟨rfl, ?_⟩
    intro s' o h
    refine ppStep_env (P := MacroProp (TabEnv names)) (by intro n r r' e; cases e) ?_ h hs
    intro n' e env he
    obtain ⟨e1, e2⟩ := menv_undef he.1 n'
    refine ⟨e2, ?_⟩
    show TabEnv names (menvOf (remDef env .macros n').1)
    rw [e1]
    exact tabEnv_undef he.2 n'
  | _ =>
    refine ⟨rfl, ?_⟩
    intro s' o h
    exact ppStep_env (P := MacroProp (TabEnv names)) (by intro n r r' e; cases e) (by intro n e; cases e) h hs

theorem tab_run (w : Setup) (ho : FormatTabs w.orc) {names : List Str} : ∀ (ls : List Line) (i : Nat) (s : PPState (Store DefVal)),
    MacroProp (TabEnv names) s.env → (∀ l ∈ ls, TabLine names l) → ppRun w.semTab i s ls = ppRun w.sem i s ls ∧
      ∀ s' os, ppRun w.sem i s ls = .ok (s', os) → MacroProp (TabEnv names) s'.env := by
  intro ls
  induction ls with
  | nil => intro i s hs _; exact ⟨rfl, fun s' os h => by cases h; exact hs⟩
  | cons l ls ih =>
    intro i s hs hl
    obtain ⟨h1, h2⟩ := tab_step w ho (i := i) hs (hl l (by simp))
    rw [ppRun, ppRun, h1]
    cases h3 : ppStep w.sem i s l with
    | error e => exact ⟨rfl, fun s' os h => by cases h⟩
    | ok p =>
      obtain ⟨s1, o⟩ := p
      obtain ⟨h4, h5⟩ := ih (i + 1) s1 (h2 s1 o h3) (fun l' hl' => hl l' (by simp [hl']))
      simp only
      rw [h4]
      refine ⟨rfl, ?_⟩
      intro s' os h
      cases h6 : ppRun w.sem (i + 1) s1 ls with
      | error e => rw [h6] at h; cases h
      | ok q =>
        rw [h6] at h
        cases h
        exact h5 _ _ h6

/-- The lines that `preprocess` sees. -/
def linesOf (text : Str) : List Line := (splitOnC '\n' (joinLines (removeComments text))).map classify

/-- A file whose tabs are layout only: those in definitions are around the value and the parameters, no macro is called like a parameter, and
those in the text that is left after preprocessing are between tokens. -/
def FileTabs (w : Setup) (names : List Str) (s : Store DefVal) (path text : Str) : Prop :=
  (∀ l ∈ linesOf text, TabLine names l) ∧
    ∀ st out, preprocess w.sem (setFile s (some path)) (removeComments text) = .ok (st, out) → TabSafe .free ' ' out

/-- C94: a file leads to the same tables, text and errors, whether or not its tabs are replaced by blanks up to the next multiple of eight before
`#define` lines and definitions are read.  What pyparsing makes of the text of a struct without braces does not depend on white space (`hj`). -/
theorem C94_file_partial (w : Setup) (hg : gramOk w.castGram = true) (ho : FormatTabs w.orc) {names : List Str} {s : Store DefVal}
    (hs : MacroProp (TabEnv names) s) {path text : Str}
    (hj : ∀ pk pk' t t', Respaced pk pk' .free ';' t t' → w.junk t = w.junk t') (h : FileTabs w names s path text) :
    processFileTab w s path text = processFile w s path text := by
  obtain ⟨h1, h2⟩ := h
  have hs' : MacroProp (TabEnv names) (setFile s (some path)) := ⟨⟨hs.1.mac, hs.1.fn⟩, hs.2⟩
  have hr := (tab_run w ho (linesOf text) 0 (PPState.init (setFile s (some path))) hs' h1).1
  have hp : preprocess w.semTab (setFile s (some path)) (removeComments text) = preprocess w.sem (setFile s (some path)) (removeComments text) := by
    unfold linesOf at hr
    unfold preprocess
    rw [hr]
  unfold processFileTab processFile
  rw [hp]
  cases h3 : preprocess w.sem (setFile s (some path)) (removeComments text) with
  | error e => rfl
  | ok p =>
    obtain ⟨st, out⟩ := p
    have h4 := tab_respaced st.packList (out := out) (h2 st out h3) [] rfl
    have h5 := C59_texts_partial (g := w.gram [] []) hg st.env (fun t t' h => hj _ _ t t' h) h4
    simp only
    have e1 : w.gram st.packList (expandTabs 0 out) =
        (w.gram [] []).withPack (fun n => structPacking st.packList (expandTabs 0 out) ((expandTabs 0 out).length - n)) := rfl
    have e2 : w.gram st.packList out = (w.gram [] []).withPack (fun n => structPacking st.packList out (out.length - n)) := rfl
    have e3 : expandTabs (colAfter 0 []) out = expandTabs 0 out := rfl
    rw [e1, e2, h5, e3]
    split <;> rename_i h6 <;> simp only [h6]

/-- After a file the macros are still without tabs. -/
theorem fileTabs_keep (w : Setup) (ho : FormatTabs w.orc) {names : List Str} {s s' : Store DefVal} (hs : MacroProp (TabEnv names) s) {path text out : Str}
    (h : FileTabs w names s path text) (he : processFile w s path text = .ok (s', out)) : MacroProp (TabEnv names) s' := by
  have hs' : MacroProp (TabEnv names) (setFile s (some path)) := ⟨⟨hs.1.mac, hs.1.fn⟩, hs.2⟩
  have hr := (tab_run w ho (linesOf text) 0 (PPState.init (setFile s (some path))) hs' h.1).2
  unfold linesOf at hr
  unfold processFile preprocess at he
  cases h3 : ppRun w.sem 0 (PPState.init (setFile s (some path))) ((splitOnC '\n' (joinLines (removeComments text))).map classify) with
  | error e => rw [h3] at he; cases he
  | ok p =>
    obtain ⟨st, os⟩ := p
    have hp := hr _ _ h3
    rw [h3] at he
    simp only at he
    have ha := adds_parseDefs (w.gram st.packList (joinC '\n' (os.map Out.text))) st.env (joinC '\n' (os.map Out.text))
    split at he
    · rename_i s1 e1
      cases he
      rw [e1] at ha
      obtain ⟨m1, m2, _⟩ := adds_macros ha
      simp only at m1 m2
      exact ⟨⟨m1 ▸ hp.1.1, m2 ▸ hp.1.2⟩, by unfold menvOf; rw [m1, m2]; exact hp.2⟩
    · cases he

/-- Processing of all files by `process_all` (c_parser.py:592-604) with the expansion of tabs. -/
def processFilesTab (w : Setup) (s : Store DefVal) : List (Str × Str) → Except PyErr (Store DefVal)
  | [] => .ok s
  | (path, text) :: fs =>
    match processFileTab w s path text with
    | .error e => .error e
    | .ok (s', _) => processFilesTab w s' fs

/-- Every file has tabs as layout only, in the state in which it is read. -/
inductive FilesTabs (w : Setup) (names : List Str) : Store DefVal → List (Str × Str) → Prop
  | nil (s : Store DefVal) : FilesTabs w names s []
  | cons (s : Store DefVal) (path text : Str) (fs : List (Str × Str)) (h : FileTabs w names s path text)
      (ht : ∀ s' out, processFile w s path text = .ok (s', out) → FilesTabs w names s' fs) : FilesTabs w names s ((path, text) :: fs)

/-- C94 for all files of a parser. -/
theorem C94_all_partial (w : Setup) (hg : gramOk w.castGram = true) (ho : FormatTabs w.orc) {names : List Str} {s : Store DefVal}
    (hs : MacroProp (TabEnv names) s) (hj : ∀ pk pk' t t', Respaced pk pk' .free ';' t t' → w.junk t = w.junk t') {fs : List (Str × Str)}
    (h : FilesTabs w names s fs) : processFilesTab w s fs = processFiles w s fs := by
  induction h with
  | nil s => rfl
  | cons s path text fs h ht ih =>
    simp only [processFilesTab, processFiles]
    rw [C94_file_partial w hg ho hs hj h]
    cases h1 : processFile w s path text with
    | error e => rfl
    | ok p =>
      obtain ⟨s', out⟩ := p
      exact ih s' out h1 (fileTabs_keep w ho hs h h1)

/-- C94: two layouts of a file, with tabs or without, lead to the same tables or to the same error (C92 with the expansion of tabs). -/
theorem C94_layout_partial (w : Setup) (hg : gramOk w.castGram = true) (ho : FormatTabs w.orc) {names : List Str} {s : Store DefVal}
    (hs : MacroProp (TabEnv names) s) {path text text' : Str} {P : Store DefVal → Prop} (hP : P (setFile s (some path)))
    (hj : ∀ pk pk' t t', Respaced pk pk' .free ';' t t' → w.junk t = w.junk t') (h : FileTabs w names s path text)
    (h' : FileTabs w names s path text') (hl : Relaid w.sem P text text') :
    (processFileTab w s path text).map (·.1) = (processFileTab w s path text').map (·.1) := by
  rw [C94_file_partial w hg ho hs hj h, C94_file_partial w hg ho hs hj h']
  exact C92_file_partial w hg hP (fun t t' => hj _ _ t t') hl

/-! ### A test for texts whose tabs are layout -/

/-- A test for `TabSafe`. -/
def tabSafeB : Nat → Ctx → Char → Str → Bool
  | 0, _, _, _ => false
  | n + 1, k, p, s =>
    match s.dropWhile isWhite with
    | [] => true
    | c :: t =>
      (!(s.takeWhile isWhite).contains '\t' || !kept k c) &&
        (if isQuoteC c then
          match matchQuoted c t with
          | none => tabSafeB n (nextCtx k p (s.takeWhile isWhite) c) c t
          | some (a, r) => !a.contains '\t' && (tabSafeB n .free c t && tabSafeB n .free c r)
        else tabSafeB n (nextCtx k p (s.takeWhile isWhite) c) c t)

theorem tabSafeB_sound : ∀ (n : Nat) (k : Ctx) (p : Char) (s : Str), tabSafeB n k p s = true → TabSafe k p s := by
  intro n
  induction n with
  | zero => intro k p s h; cases h
  | succ n ih =>
    intro k p s h
    have e : s = s.takeWhile isWhite ++ s.dropWhile isWhite := List.takeWhile_append_dropWhile.symm
    have hw : (s.takeWhile isWhite).all isWhite = true := List.all_takeWhile
    rw [tabSafeB] at h
    split at h
    · rename_i h1
      rw [e, h1, List.append_nil]
      exact .tail _ _ _ hw
    · rename_i c t h1
      have hc : isWhite c = false := dropWhile_head s c (by simp [h1])
      simp only [Bool.and_eq_true, Bool.or_eq_true, Bool.not_eq_true'] at h
      obtain ⟨h2, h3⟩ := h
      have hk : '\t' ∈ s.takeWhile isWhite → kept k c = false := by
        intro hm
        rcases h2 with h2 | h2
        · simp [hm] at h2
        · exact h2
      rw [e, h1]
      split at h3
      · rename_i hq
        split at h3
        · rename_i hn
          exact .char _ _ _ _ _ hw hc hk (fun _ => hn) (ih _ _ _ h3)
        · rename_i a r hn
          simp only [Bool.and_eq_true, Bool.not_eq_true'] at h3
          exact .literal _ _ _ _ _ a r hw hq hk hn (by simpa using h3.1) (ih _ _ _ h3.2.1) (ih _ _ _ h3.2.2)
      · rename_i hq
        exact .char _ _ _ _ _ hw hc hk (fun hq' => absurd hq' hq) (ih _ _ _ h3)

/-- A header with tabs in many places. -/
def tabHeader : Str := c%"#define\tN\t4\t/* size */\n#define\tTWICE(x,\ty)\t((x) + (x))\t\n\nstruct\tS\n{\n\tint\ta[N];\n\tchar\t*p;\t/* name */\n};\n\tint\tk = TWICE(3, 4);\nchar\tt[] = \"a b\";"

theorem exSetup_format : FormatTabs exSetup.orc := by
  intro t as x _ _ h
  cases h

theorem tabHeader_ok : FileTabs exSetup [c%"x", c%"y"] Store.empty c%"t.h" tabHeader := by
  have hid : ∀ c : Char, isIdentStart c = true → IsIdent [c] := fun c h => ⟨c, [], rfl, h, by simp⟩
  refine ⟨?_, ?_⟩
  · have e : linesOf tabHeader = [.define c%"N" c%"\t4\t", .define c%"TWICE" c%"(x,\ty)\t((x) + (x))\t", .code [], .code c%"struct\tS", .code c%"{",
        .code c%"\tint\ta[N];", .code c%"\tchar\t*p;\t", .code c%"};", .code c%"\tint\tk = TWICE(3, 4);", .code c%"char\tt[] = \"a b\";"] := by
      decide +kernel
    rw [e]
    intro l hl
    simp only [List.mem_cons, List.not_mem_nil, or_false] at hl
    rcases hl with rfl | rfl | rfl | rfl | rfl | rfl | rfl | rfl | rfl | rfl
    · exact ⟨by decide, .object _ ⟨c%"\t", c%"4", c%"\t", rfl, by simp [TabBlank], by decide, by simp [TabBlank]⟩⟩
    · refine ⟨by decide, .func [] c%"x,\ty)" c%"\t((x) + (x))\t" [c%"x", c%"y"] (by simp [TabBlank]) ?_ (by simp) ?_⟩
      · exact .more [] ['x'] [] _ _ (by simp [TabBlank]) (hid _ (by decide)) (by simp [TabBlank])
          (.last ['\t'] ['y'] [] (by simp [TabBlank]) (hid _ (by decide)) (by simp [TabBlank]))
      · exact ⟨c%"\t", c%"((x) + (x))", c%"\t", rfl, by simp [TabBlank], by decide, by simp [TabBlank]⟩
    all_goals trivial
  · intro st out h
    have e : (preprocess exSetup.sem (setFile Store.empty (some c%"t.h")) (removeComments tabHeader)).toOption.map (·.2) =
        some c%"\n\n\nstruct\tS\n{\n\tint\ta[4];\n\tchar\t*p;\t\n};\n\tint\tk = ((3) + (3));\nchar\tt[] = \"a b\";" := by decide +kernel
    rw [h] at e
    cases e
    exact tabSafeB_sound 200 _ _ _ (by decide +kernel)

/-- Non-vacuity: a header with tabs in definitions, between tokens and before comments. -/
theorem C94_example : gramOk exSetup.castGram = true ∧ FormatTabs exSetup.orc ∧ MacroProp (TabEnv [c%"x", c%"y"]) Store.empty ∧
    FileTabs exSetup [c%"x", c%"y"] Store.empty c%"t.h" tabHeader ∧
    processFileTab exSetup Store.empty c%"t.h" tabHeader = processFile exSetup Store.empty c%"t.h" tabHeader ∧
    (fileGet tabHeader .structs c%"S").map Option.isSome = some true ∧ (fileGet tabHeader .variables c%"k").map Option.isSome = some true := by
  have h1 : MacroProp (TabEnv [c%"x", c%"y"]) Store.empty :=
    ⟨⟨(fun p hp => nomatch hp), (fun p hp => nomatch hp)⟩, ⟨(fun k v h => by cases h), (fun k v h => by cases h)⟩, fun p _ => ⟨rfl, rfl⟩⟩
  exact ⟨by decide, exSetup_format, h1, tabHeader_ok, C94_file_partial exSetup (by decide) exSetup_format h1 (fun _ _ _ _ _ => rfl) tabHeader_ok,
    by decide +kernel, by decide +kernel⟩

/-- The entry for a name after a file, with the expansion of tabs. -/
def fileGetTab (text : Str) (k : Kind) (n : Str) : Option (Option DefVal) :=
  match processFileTab exSetup Store.empty c%"t.h" text with
  | .ok (s, _) => some (dget (s.defs k) n)
  | .error _ => none

/-- C94 fails for a tab in a string: the value has blanks instead, and how many depends on what is in front of the string. -/
theorem C94_counterexample_string :
    fileGetTab c%"#define S \"a\tb\"\nchar *t = \"a\tb\";\n" .values c%"S" = some (some (.value (.str c%"a   b"))) ∧
    fileGetTab c%"#define S \"a\tb\"\nchar *t = \"a\tb\";\n" .values c%"t" = some (some (.value (.str c%"a    b"))) ∧
    fileGet c%"#define S \"a\tb\"\nchar *t = \"a\tb\";\n" .macros c%"S" = some (some (.macro c%"\"a\tb\"")) := ⟨by rfl, by rfl, by rfl⟩

end Pyclib
