import Verif.Props.Reads
import Verif.Props.Split
import Verif.Props.Literals
import Verif.Model.Cache
import Verif.Spec.Given
/-! C101: macros that are given to the constructor act like a header with their definitions that is read first. -/
namespace Pyclib
open Spec

/-- C101, one file: values that the file does not ask for have no influence on it. -/
theorem C101_file {w : Setup} (hp : PyWords w.py) (hf : [] ∉ w.cfg.extraTypes) (hm : [] ∉ w.mods) {N : Str → Prop} {s t : St}
    (hs : MacOk s) (ht : MacOk t) {path text : Str} (h : AgreeOn (fun k n => ¬ ValueOf N k n) s t)
    (hr : ∀ n, N n → ¬ FileReads w s path text .values n) :
    (∀ e, processFile w s path text = .error e → processFile w t path text = .error e) ∧
    ∀ s' out, processFile w s path text = .ok (s', out) → ∃ t', processFile w t path text = .ok (t', out) ∧
      AgreeOn (fun k n => ¬ ValueOf N k n) s' t' := by
  have h1 : AgreeOn (FileReads w s path text) s t := fun k n hk => h k n (by rintro ⟨rfl, hn⟩; exact hr n hn hk)
  obtain ⟨h2, h3⟩ := C85_file hp hf hm hs ht h1
  refine ⟨h2, fun s' out e => ?_⟩
  obtain ⟨t', e', h4⟩ := h3 s' out e
  exact ⟨t', e', h4.agree (setFile_agree h (some path))⟩

/-- C101, all files: values that no file asks for have no influence on what is recorded otherwise. -/
theorem C101_files {w : Setup} (hp : PyWords w.py) (hf : [] ∉ w.cfg.extraTypes) (hm : [] ∉ w.mods) {N : Str → Prop} :
    ∀ (fs : List (Str × Str)) (s t : St), MacOk s → MacOk t → AgreeOn (fun k n => ¬ ValueOf N k n) s t → AsksNoValue w N s fs →
      (∀ e, processFiles w s fs = .error e → processFiles w t fs = .error e) ∧
      ∀ u, processFiles w s fs = .ok u → ∃ u', processFiles w t fs = .ok u' ∧ AgreeOn (fun k n => ¬ ValueOf N k n) u u'
  | [], s, t, _, _, h, _ => ⟨fun _ h => (nomatch h), fun u e => by cases e; exact ⟨t, rfl, h⟩⟩
  | (path, text) :: fs, s, t, hs, ht, h, hr => by
    obtain ⟨h1, h2⟩ := C101_file hp hf hm hs ht h hr.1
    simp only [processFiles]
    cases e : processFile w s path text with
    | error e1 => rw [h1 e1 e]; exact ⟨fun _ h => h, fun _ h => (nomatch h)⟩
    | ok x =>
      obtain ⟨s', out⟩ := x
      obtain ⟨t', e', h3⟩ := h2 s' out e
      rw [e']
      exact C101_files hp hf hm fs s' t' (macOk_file e hs) (macOk_file e' ht) h3 (hr.2 s' out e)

/-! ### The header with the definitions -/

/-- The keyword argument `macros` (c_parser.py:530-532). -/
def givenMacros (ds : List (Str × Str × Str)) : List (Kind × Str × DefVal) := ds.map fun d => (.macros, d.2.1, .macro d.2.2)

theorem paramList_plain {r : Str} (h : (strip r).head? ≠ some '(') : paramList r = none := by
  cases e : strip r with
  | cons c s =>
    rw [e] at h
    exact paramList_none e (by simpa using h)
  | nil =>
    obtain ⟨a, b, hr, ha, hb⟩ := strip_parts r
    unfold paramList
    split
    · rename_i t h1
      have hm : '(' ∈ r := (List.dropWhile_suffix _).subset (by rw [show r.dropWhile _ = skipBlank r from rfl, h1]; simp)
      rw [hr, e] at hm
      simp only [List.nil_append, List.mem_append] at hm
      rcases hm with hm | hm
      · exact absurd (List.all_eq_true.1 ha '(' hm) (by decide)
      · exact absurd (List.all_eq_true.1 hb '(' hm) (by decide)
    · rfl

/-- Tables in which only these macros are defined. -/
structure OnlyGiven (names : List Str) (s t : St) : Prop where
  mac : MacOk s
  mac' : MacOk t
  fn : s.defs .fnmacros = []
  nm : ∀ n, dget (s.defs .macros) n ≠ none → n ∈ names
  agree : AgreeOn (fun k n => ¬ ValueOf (· ∈ names) k n) s t

theorem onlyGiven_step {w : Setup} {names : List Str} {s t : St} (h : OnlyGiven names s t) {x r : Str} (hx : x ∈ names)
    (hw : ∀ n ∈ names, ¬ IsWord r n) (hl : r.count '"' ≤ 1 ∨ ∀ c ∈ r.getLast?, [c] ∉ names) (hb : (strip r).head? ≠ some '(') :
    OnlyGiven names (w.sem.define s x (w.sem.expand s r)) (addDef t .macros x (.macro (strip r))) := by
  have hnone : ∀ n, n ∉ names → dget (menvOf s).macros n = none := fun n hn => by
    rw [mac_get h.mac]
    cases e : dget (s.defs .macros) n with
    | none => rfl
    | some v => exact absurd (h.nm n (by rw [e]; simp)) hn
  have hfn : ∀ n, dget (menvOf s).fnmacros n = none := fun n => by
    rw [fn_get h.mac, h.fn]; rfl
  have hexp : w.sem.expand s r = r := by
    refine C23_unchanged_partial w.orc (menvOf s) r (fun n hn => ⟨hnone n fun hm => hw n hm hn, hfn n⟩) ?_
    exact hl.imp_right fun hl c hc => hnone _ (hl c hc)
  rw [hexp]
  have hpd : parseDefine r = (none, strip r) := by
    unfold parseDefine
    rw [paramList_plain hb]
  have hdef : w.sem.define s x r = addDef (addDef s .macros x (.macro (strip r))) .values x (.value (evIn w.ev s (strip r))) := by
    show defineIn w.ev s x r = _
    unfold defineIn
    simp only [hpd, h.fn]
    rfl
  have hmac := (menv_define h.mac w.ev x r).2
  refine ⟨hmac, ⟨?_, ?_⟩, ?_, ?_, ?_⟩
  · simp only [defs_add]
    simpa using allK_dset h.mac'.mac x _ rfl
  · simp only [defs_add]
    simpa using h.mac'.fn
  · rw [hdef]
    simp only [defs_add]
    simpa using h.fn
  · intro n hn
    rw [hdef] at hn
    simp only [defs_add] at hn
    by_cases e : x = n
    · exact e ▸ hx
    · refine h.nm n ?_
      simpa [dget_dset_ne _ _ e] using hn
  · intro k n hk
    rw [hdef]
    simp only [defs_add]
    have h0 := h.agree k n hk
    by_cases e1 : k = .values
    · subst e1
      have hne : x ≠ n := fun e => hk ⟨rfl, e ▸ hx⟩
      simpa [dget_dset_ne _ _ hne] using h0
    · by_cases e2 : k = .macros
      · subst e2
        by_cases e : x = n
        · subst e; simp
        · simpa [dget_dset_ne _ _ e] using h0
      · simpa [e1, e2] using h0

theorem given_run {w : Setup} {names : List Str} : ∀ (ds : List (Str × Str × Str)) (i : Nat) (st : PPState St) (t : St),
    (∀ d ∈ ds, DefLine names d.1 d.2.1 d.2.2 ∧ d.2.1 ∈ names) → OnlyGiven names st.env t → st.ifTrue = [true] →
    ∃ st' os, ppRun w.sem i st ((ds.map (·.1)).map classify) = .ok (st', os) ∧ (∀ o ∈ os, o = .blank) ∧
      OnlyGiven names st'.env (addKwargs t (givenMacros ds))
  | [], i, st, t, _, h, _ => ⟨st, [], rfl, fun _ h => (nomatch h), h⟩
  | (l, x, body) :: ds, i, st, t, hd, h, hi => by
    obtain ⟨⟨r, h1, h2, h3, h4, h5⟩, hx⟩ := hd (l, x, body) (by simp)
    simp only at h1 h4 h5 hx
    subst h4
    have hs := onlyGiven_step (w := w) h hx h2 h3 h5
    obtain ⟨st', os, e, hb, hg⟩ := given_run (w := w) ds (i + 1) { st with env := w.sem.define st.env x (w.sem.expand st.env r) }
      (addDef t .macros x (.macro (strip r))) (fun d hm => hd d (by simp [hm])) hs hi
    refine ⟨st', .blank :: os, ?_, ?_, hg⟩
    · simp only [List.map_cons, ppRun, C17_leaf h1, ppStep, hi, List.all_nil, if_true]
      rw [show ({ st with env := w.sem.define st.env x (w.sem.expand st.env r), ifTrue := [true] } : PPState St) =
        { st with env := w.sem.define st.env x (w.sem.expand st.env r) } from by rw [← hi], e]
      rfl
    · intro o ho
      rcases List.mem_cons.1 ho with rfl | ho
      · rfl
      · exact hb o ho

theorem parseDefs_white {g : Gram} {s : St} {t : Str} (h : t.all isWhite = true) : parseDefs g s t = (s, none) := by
  have : ∀ (t : Str) (p : Char), t.all isWhite = true → (skipWs p t).rest = [] := by
    intro t
    induction t with
    | nil => intro _ _; rfl
    | cons c t ih =>
      intro p h
      simp only [List.all_cons, Bool.and_eq_true] at h
      simp only [skipWs, h.1, if_true]
      exact ih _ h.2
  have : (Pos.skip ⟨' ', t⟩).rest = [] := this t ' ' h
  unfold parseDefs
  simp only [scan, this]

theorem blanks_white : ∀ {os : List Out}, (∀ o ∈ os, o = .blank) → (joinC '\n' (os.map Out.text)).all isWhite = true
  | [], _ => rfl
  | [o], h => by rw [h o (by simp)]; rfl
  | o :: o' :: os, h => by
    rw [h o (by simp)]
    have := blanks_white (os := o' :: os) fun x hx => h x (by simp [hx])
    simpa [joinC, Out.text, isWhite] using this

/-- What the header leaves in the tables. -/
theorem given_header (w : Setup) {path text : Str} {ds : List (Str × Str × Str)} (h : IsSource text (ds.map (·.1)))
    (hd : ∀ d ∈ ds, DefLine (ds.map (·.2.1)) d.1 d.2.1 d.2.2) :
    ∃ s out, processFile w Store.empty path text = .ok (s, out) ∧ OnlyGiven (ds.map (·.2.1)) s (initStore (givenMacros ds)) := by
  have h0 : OnlyGiven (ds.map (·.2.1)) (setFile (Store.empty : St) (some path)) Store.empty :=
    ⟨setFile_macOk empty_macOk _, empty_macOk, rfl, fun _ h => absurd rfl h, fun _ _ _ => rfl⟩
  obtain ⟨st', os, e, hb, hg⟩ := given_run (w := w) ds 0 (PPState.init (setFile Store.empty (some path))) Store.empty
    (fun d hm => ⟨hd d hm, List.mem_map.2 ⟨d, hm, rfl⟩⟩) h0 rfl
  refine ⟨st'.env, joinC '\n' (os.map Out.text), ?_, hg⟩
  unfold processFile preprocess
  rw [source_lines h, e]
  simp only
  rw [parseDefs_white (blanks_white hb)]

/-- C101: `CParser(files, macros={x: body, …})` and a header with `#define x body` … that is read first: the same exception, or the same
tables.  The exception are the values of these macros: the constructor records none, and therefore the files must not ask for one. -/
theorem C101_given_partial {w : Setup} (hp : PyWords w.py) (hf : [] ∉ w.cfg.extraTypes) (hm : [] ∉ w.mods) {path text : Str}
    {ds : List (Str × Str × Str)} (h : IsSource text (ds.map (·.1))) (hd : ∀ d ∈ ds, DefLine (ds.map (·.2.1)) d.1 d.2.1 d.2.2)
    {fs : List (Str × Str)} (ha : ∀ s out, processFile w Store.empty path text = .ok (s, out) →
      AsksNoValue w (· ∈ ds.map (·.2.1)) s fs) :
    (∀ e, processFiles w Store.empty ((path, text) :: fs) = .error e → processFiles w (initStore (givenMacros ds)) fs = .error e) ∧
    ∀ u, processFiles w Store.empty ((path, text) :: fs) = .ok u → ∃ u', processFiles w (initStore (givenMacros ds)) fs = .ok u' ∧
      ∀ k n, ¬ (k = .values ∧ n ∈ ds.map (·.2.1)) → dget (u.defs k) n = dget (u'.defs k) n := by
  obtain ⟨s, out, e, hg⟩ := given_header w (path := path) h hd
  simp only [processFiles, e]
  exact C101_files hp hf hm fs s _ hg.mac hg.mac' hg.agree (ha s out e)

/-! ### Example -/

/-- A check for lines of the header. -/
def defLineB (names : List Str) (line x r body : Str) : Bool :=
  decide (line = c%"#define " ++ (x ++ r)) && (x.head?.any isIdentStart && x.all isWordC) && (r.head?.all fun c => !isWordC c) && names.all (fun n => !(wordEnds r).contains n) &&
    decide (r.count '"' ≤ 1) && decide (strip r = body) && (body.head? != some '(')

theorem defLine_check {names : List Str} {line x r body : Str} (h : defLineB names line x r body = true) : DefLine names line x body := by
  simp only [defLineB, Bool.and_eq_true, decide_eq_true_eq, List.all_eq_true, bne_iff_ne] at h
  obtain ⟨⟨⟨⟨⟨⟨h1, h2, h2'⟩, h3⟩, h4⟩, h5⟩, h6⟩, h7⟩ := h
  have hid : IsIdent x := by
    cases x with
    | nil => cases h2
    | cons c x => exact ⟨c, x, rfl, by simpa using h2, fun d hd => h2' d (by simp [hd])⟩
  have h3' : ∀ c, r.head? = some c → isWordC c = false := fun c e => by
    rw [e] at h3
    simpa using h3
  refine ⟨r, ?_, fun n hn hw => ?_, .inl h5, h6, h7⟩
  · refine .define line (' ' :: (x ++ r)) x r ⟨[], [], fun _ h => (nomatch h), fun _ h => (nomatch h), by simpa using h1, ?_⟩
      ⟨[' '], by simp, fun c h => .inl (by simpa using h), hid, rfl, h3'⟩
    intro c e
    cases e
    decide
  · obtain ⟨a, b, e, w1, w2, w3, w4⟩ := hw
    have := mem_wordEnds (n := n) (a := a) (b := b) (List.all_eq_true.2 w2) w4
    rw [← List.append_assoc, ← e] at this
    exact absurd (h4 n hn) (by simp [this])

/-- The definitions: a flag, a number, a type. -/
def gvDefs : List (Str × Str × Str) := [(c%"#define API", c%"API", []), (c%"#define N 4", c%"N", c%"4"), (c%"#define T long", c%"T", c%"long")]

/-- The header. -/
def gvHeader : Str := c%"#define API\n#define N 4\n#define T long"

/-- Files that use the macros. -/
def gvFiles : List (Str × Str) :=
  [(c%"a.h", c%"#ifdef API\nstruct S { T a[N]; };\n#endif\n#undef T\n"), (c%"b.h", c%"#define M N\nint T[M];\nint area(struct S *s);")]

/-- The tables after the header. -/
def gvStart : St := aloneOf exSetup Store.empty (c%"d.h", gvHeader)

/-- A check that files do not ask for values. -/
def asksNoB (w : Setup) (names : List Str) : St → List (Str × Str) → Bool
  | _, [] => true
  | s, f :: fs => (match fileReadsL w s f.1 f.2 with
    | some l => names.all fun n => !l.contains (Kind.values, n)
    | none => false) && asksNoB w names (aloneOf w s f) fs

theorem asks_check {w : Setup} {names : List Str} : ∀ {fs : List (Str × Str)} {s : St}, asksNoB w names s fs = true →
    AsksNoValue w (· ∈ names) s fs
  | [], _, _ => trivial
  | (path, text) :: fs, s, h => by
    simp only [asksNoB, Bool.and_eq_true] at h
    refine ⟨fun n hn hr => ?_, fun s' out e => ?_⟩
    · have h1 := h.1
      split at h1
      · rename_i l e
        have := List.all_eq_true.1 h1 n hn
        simp only [Bool.not_eq_true', List.contains_eq_mem, decide_eq_false_iff_not] at this
        exact this (fileReads_mem e hr)
      · cases h1
    · have h2 := h.2
      rw [aloneOf, e] at h2
      exact asks_check h2

theorem gv_asks : AsksNoValue exSetup (· ∈ gvDefs.map (·.2.1)) gvStart gvFiles := asks_check (by decide +kernel)

theorem C101_example : IsSource gvHeader (gvDefs.map (·.1)) ∧
    ∃ u u', processFiles exSetup Store.empty ((c%"d.h", gvHeader) :: gvFiles) = .ok u ∧
      processFiles exSetup (initStore (givenMacros gvDefs)) gvFiles = .ok u' ∧
      (∀ k n, ¬ (k = .values ∧ n ∈ [c%"API", c%"N", c%"T"]) → dget (u.defs k) n = dget (u'.defs k) n) ∧
      ((dget (u.defs .structs) c%"S").isSome && (dget (u.defs .variables) c%"T").isSome && (dget (u.defs .functions) c%"area").isSome) = true := by
  have h0 : IsSource gvHeader (gvDefs.map (·.1)) :=
    plain_source (by decide) (by decide) (by decide) (by decide) (by decide) rfl (by decide) (by decide)
  refine ⟨h0, ?_⟩
  obtain ⟨u, e, hu⟩ := files_check (fs := (c%"d.h", gvHeader) :: gvFiles) (p := fun u => (dget (u.defs .structs) c%"S").isSome &&
    (dget (u.defs .variables) c%"T").isSome && (dget (u.defs .functions) c%"area").isSome) (by decide +kernel)
  have hd : ∀ d ∈ gvDefs, DefLine (gvDefs.map (·.2.1)) d.1 d.2.1 d.2.2 := by
    intro d hd
    simp only [gvDefs, List.mem_cons, List.not_mem_nil, or_false] at hd
    rcases hd with rfl | rfl | rfl
    · exact defLine_check (r := []) (by decide)
    · exact defLine_check (r := c%" 4") (by decide)
    · exact defLine_check (r := c%" long") (by decide)
  have ha : ∀ s out, processFile exSetup Store.empty c%"d.h" gvHeader = .ok (s, out) →
      AsksNoValue exSetup (· ∈ gvDefs.map (·.2.1)) s gvFiles := by
    intro s out e
    have : gvStart = s := by rw [gvStart, aloneOf, e]
    exact this ▸ gv_asks
  obtain ⟨u', e', h'⟩ := (C101_given_partial exSetup_words (by decide) (by decide) h0 hd ha).2 u e
  exact ⟨u, u', e, e', h', hu⟩

/-- The constructor records no value for a macro: `defs['values']` has an entry only if the macro is defined in a header. -/
theorem C101_counterexample_values :
    (∃ u, processFiles exSetup Store.empty [(c%"d.h", c%"#define N 4")] = .ok u ∧ (dget (u.defs .values) c%"N").isSome = true) ∧
    processFiles exSetup (initStore (givenMacros [(c%"#define N 4", c%"N", c%"4")])) [] =
      .ok (initStore (givenMacros [(c%"#define N 4", c%"N", c%"4")])) ∧
    dget ((initStore (givenMacros [(c%"#define N 4", c%"N", c%"4")])).defs .values) c%"N" = none :=
  ⟨files_check (by decide +kernel), rfl, rfl⟩

/-- Python on numbers of one digit and on names. -/
def gvPy (tbl : Dict Str DefVal) (e : Str) : PVal :=
  if strip e = c%"4" then .int 4 else
    match dget tbl (strip e) with
    | some (.value v) => v
    | _ => .none

/-- The value that the header `b.h` has for `A`. -/
def gvValue (s : St) (fs : List (Str × Str)) : Option (Option (List (Option Int))) :=
  match processFiles { exSetup with py := gvPy } s fs with
  | .ok u => some (match dget (u.defs .values) c%"A" with
    | some (.value v) => some [v.dim]
    | _ => none)
  | .error _ => none

/-- The value of a macro outlives `#undef`, and a file may ask for it: then it matters where the macro comes from. -/
theorem C101_counterexample_undef :
    gvValue Store.empty [(c%"d.h", c%"#define N 4"), (c%"b.h", c%"#undef N\nenum e { A = N };")] = some (some [some 4]) ∧
    gvValue (initStore (givenMacros [(c%"#define N 4", c%"N", c%"4")])) [(c%"b.h", c%"#undef N\nenum e { A = N };")] ≠ some (some [some 4]) := by
  decide +kernel

end Pyclib
