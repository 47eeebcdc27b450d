import Verif.Spec.Preproc
/-! Helper lemmas for the preprocessor line machine. -/
namespace Pyclib
open Spec

variable {E : Type}

@[simp] theorem codes_nil : codes [] = [] := rfl
@[simp] theorem codes_append (a b : List Out) : codes (a ++ b) = codes a ++ codes b := by
  simp [codes]
@[simp] theorem codes_blank (a : List Out) : codes (.blank :: a) = codes a := by simp [codes]
@[simp] theorem codes_code (s : Str) (a : List Out) : codes (.code s :: a) = s :: codes a := by
  simp [codes]

theorem ppRun_cons_ok {sem : PPSem E} {i : Nat} {s s2 : PPState E} {l : Line} {ls : List Line}
    {os : List Out} (h : ppRun sem i s (l :: ls) = .ok (s2, os)) :
    ∃ s1 o os', ppStep sem i s l = .ok (s1, o) ∧ ppRun sem (i + 1) s1 ls = .ok (s2, os') ∧
      os = o.toList ++ os' := by
  simp only [ppRun] at h
  split at h
  · cases h
  · rename_i s1 o h1
    split at h
    · cases h
    · rename_i s' os' h2
      cases h
      exact ⟨s1, o, os', h1, h2, rfl⟩

theorem ppRun_cons_of {sem : PPSem E} {i : Nat} {s s1 s2 : PPState E} {l : Line} {ls : List Line}
    {o : Option Out} {os : List Out} (h1 : ppStep sem i s l = .ok (s1, o))
    (h2 : ppRun sem (i + 1) s1 ls = .ok (s2, os)) :
    ppRun sem i s (l :: ls) = .ok (s2, o.toList ++ os) := by
  simp [ppRun, h1, h2]

theorem ppRun_append_ok {sem : PPSem E} {a b : List Line} : ∀ {i : Nat} {s s2 : PPState E}
    {os : List Out}, ppRun sem i s (a ++ b) = .ok (s2, os) →
    ∃ s1 o1 o2, ppRun sem i s a = .ok (s1, o1) ∧ ppRun sem (i + a.length) s1 b = .ok (s2, o2) ∧
      os = o1 ++ o2 := by
  induction a with
  | nil => intro i s s2 os h; exact ⟨s, [], os, rfl, by simpa using h, rfl⟩
  | cons l a ih =>
    intro i s s2 os h
    obtain ⟨s1, o, os', h1, h2, rfl⟩ := ppRun_cons_ok (by simpa using h)
    obtain ⟨s3, p1, p2, h3, h4, rfl⟩ := ih h2
    refine ⟨s3, o.toList ++ p1, p2, ppRun_cons_of h1 h3, ?_, by simp⟩
    rw [← h4]; congr 1; simp; omega

theorem ppRun_append_of {sem : PPSem E} {a b : List Line} : ∀ {i : Nat} {s s1 s2 : PPState E}
    {o1 o2 : List Out}, ppRun sem i s a = .ok (s1, o1) → ppRun sem (i + a.length) s1 b = .ok (s2, o2) →
    ppRun sem i s (a ++ b) = .ok (s2, o1 ++ o2) := by
  induction a with
  | nil => intro i s s1 s2 o1 o2 h h'; simp only [ppRun] at h; cases h; simpa using h'
  | cons l a ih =>
    intro i s s1 s2 o1 o2 h h'
    obtain ⟨s3, o, os', h1, h2, rfl⟩ := ppRun_cons_ok h
    rw [List.cons_append, List.append_assoc]
    refine ppRun_cons_of h1 (ih h2 ?_)
    rw [← h']; congr 1; simp; omega

theorem ppRun_append_error {sem : PPSem E} {a b : List Line} : ∀ {i : Nat} {s : PPState E}
    {e : PyErr}, ppRun sem i s a = .error e → ppRun sem i s (a ++ b) = .error e := by
  induction a with
  | nil => intro i s e h; simp [ppRun] at h
  | cons l a ih =>
    intro i s e h
    simp only [ppRun, List.cons_append] at h ⊢
    split at h
    · exact h
    · rename_i s1 o h1
      split at h
      · rename_i h2; rw [ih h2]; exact h
      · cases h

theorem packEffect_frame {i : Nat} {s s' : PPState E} {pf : Bool} {pp : Option Str} {v : Option Nat}
    {x : Option Str} (h : packEffect i s pf pp v x = .ok s') :
    s'.env = s.env ∧ s'.ifTrue = s.ifTrue ∧ s'.ifHit = s.ifHit := by
  unfold packEffect at h
  simp only at h
  split at h
  · cases h; simp
  · split at h
    · split at h
      · cases h
      · split at h
        · cases h; simp
        · split at h
          · cases h
          · cases h; simp
    · cases h; simp

theorem doPack_frame {i : Nat} {s s' : PPState E} {t : Str} (h : doPack i s t = .ok s') :
    s'.env = s.env ∧ s'.ifTrue = s.ifTrue ∧ s'.ifHit = s.ifHit := packEffect_frame h

/-- A plain line in an active state. -/
theorem ppStep_active {sem : PPSem E} {i : Nat} {s s' : PPState E} {l : Line} {o : Option Out}
    (hl : Plain l) (ha : s.ifTrue.all id = true) (h : ppStep sem i s l = .ok (s', o)) :
    s'.env = lineEnv sem s.env l ∧ s'.ifTrue = s.ifTrue ∧ s'.ifHit = s.ifHit ∧
      codes o.toList = lineText sem s.env l := by
  cases l with
  | code c =>
    simp only [ppStep] at h
    split at h
    · cases h
    · cases h; simp [lineEnv, lineText]
    · rename_i heq; simp [heq] at ha
  | define n r =>
    simp only [ppStep] at h
    split at h
    · cases h
    · rename_i heq; simp [heq] at ha
    · rename_i ts heq
      have : ts.all id = true := by simpa [heq] using ha
      cases h; simp_all [lineEnv, lineText]
  | undef n =>
    simp only [ppStep] at h
    split at h
    · cases h
    · rename_i heq; simp [heq] at ha
    · cases h; simp [lineEnv, lineText]
  | pragma r =>
    simp only [ppStep] at h
    split at h
    · cases h
    · rename_i heq; simp [heq] at ha
    · split at h
      · cases h; simp [lineEnv, lineText]
      · split at h
        · cases h
        · rename_i hd
          cases h
          obtain ⟨h1, h2, h3⟩ := doPack_frame hd
          simp [h1, h2, h3, lineEnv, lineText]
  | other => simp only [ppStep] at h; cases h; simp [lineEnv, lineText]
  | dif _ => exact hl.elim
  | delif _ => exact hl.elim
  | delse => exact hl.elim
  | dendif => exact hl.elim
  | badName => exact hl.elim

/-- A plain line when the innermost flag is false. -/
theorem ppStep_dead {sem : PPSem E} {i : Nat} {s : PPState E} {l : Line} {ts : List Bool}
    (hl : Plain l) (hd : s.ifTrue = false :: ts) :
    ∃ o, ppStep sem i s l = .ok (s, o) ∧ codes o.toList = [] := by
  cases l <;> first | exact hl.elim | (simp [ppStep, hd])

theorem blank_nil : codes (some Out.blank).toList = [] := rfl

mutual
/-- A skipped block changes nothing and emits no code. -/
theorem block_dead {sem : PPSem E} (b : Block) (hb : b.Ok) {i : Nat} {s : PPState E} {ts : List Bool}
    (hd : s.ifTrue = false :: ts) : ∃ os, ppRun sem i s b.lines = .ok (s, os) ∧ codes os = [] := by
  match b, hb with
  | .nil, _ => exact ⟨[], rfl, rfl⟩
  | .leaf l rest, hb =>
    obtain ⟨o, h1, h2⟩ := ppStep_dead (sem := sem) (i := i) hb.1 hd
    obtain ⟨os, h3, h4⟩ := block_dead rest hb.2 (sem := sem) (i := i + 1) hd
    exact ⟨_, ppRun_cons_of h1 h3, by simp [h2, h4]⟩
  | .cond c body chain rest, hb =>
    have h0 : ppStep sem i s (.dif c) =
        .ok ({ s with ifTrue := false :: s.ifTrue, ifHit := false :: s.ifHit }, some .blank) := by
      simp [ppStep, hd]
    obtain ⟨o1, h1, e1⟩ := block_dead body hb.1 (sem := sem) (i := i + 1)
      (s := { s with ifTrue := false :: s.ifTrue, ifHit := false :: s.ifHit }) rfl
    obtain ⟨o2, h2, e2⟩ := chain_dead chain hb.2.1 (sem := sem) (i := i + 1 + body.lines.length)
      (s := { s with ifTrue := false :: s.ifTrue, ifHit := false :: s.ifHit }) (x := false)
      (ts := s.ifTrue) (h := false) (hs := s.ifHit) rfl rfl (Or.inr (by simp [hd]))
    obtain ⟨o3, h3, e3⟩ := block_dead rest hb.2.2 (sem := sem)
      (i := i + 1 + body.lines.length + chain.lines.length) hd
    refine ⟨_, ppRun_cons_of h0 (ppRun_append_of h1 (ppRun_append_of h2 h3)), ?_⟩
    simp [e1, e2, e3]
/-- The rest of a conditional after a taken branch, or inside a skipped region, changes nothing. -/
theorem chain_dead {sem : PPSem E} (c : Chain) (hc : c.Ok) {i : Nat} {s : PPState E} {x h : Bool}
    {ts hs : List Bool} (ht : s.ifTrue = x :: ts) (hh : s.ifHit = h :: hs)
    (hd : h = true ∨ ts.all id = false) :
    ∃ os, ppRun sem i s c.lines = .ok ({ s with ifTrue := ts, ifHit := hs }, os) ∧ codes os = [] := by
  match c, hc with
  | .endif, _ =>
    refine ⟨[.blank], ?_, rfl⟩
    simp [Chain.lines, ppRun, ppStep, ht, hh]
  | .els body, hc =>
    have h0 : ppStep sem i s .delse =
        .ok ({ s with ifTrue := false :: ts, ifHit := true :: hs }, some .blank) := by
      have : (!h && ts.all id) = false := by rcases hd with hd | hd <;> simp [hd]
      simp [ppStep, ht, hh] ; simpa using this
    obtain ⟨o1, h1, e1⟩ := block_dead body hc (sem := sem) (i := i + 1)
      (s := { s with ifTrue := false :: ts, ifHit := true :: hs }) rfl
    have h2 : ppRun sem (i + 1 + body.lines.length) { s with ifTrue := false :: ts, ifHit := true :: hs }
        [.dendif] = .ok ({ s with ifTrue := ts, ifHit := hs }, [.blank]) := by
      simp [ppRun, ppStep]
    exact ⟨_, ppRun_cons_of h0 (ppRun_append_of h1 h2), by simp [e1]⟩
  | .elif c body tail, hc =>
    have h0 : ppStep sem i s (.delif c) =
        .ok ({ s with ifTrue := false :: ts, ifHit := h :: hs }, some .blank) := by
      have : (h || !ts.all id) = true := by rcases hd with hd | hd <;> simp [hd]
      simp only [ppStep, ht, hh, this, if_true, Bool.or_false]
    obtain ⟨o1, h1, e1⟩ := block_dead body hc.1 (sem := sem) (i := i + 1)
      (s := { s with ifTrue := false :: ts, ifHit := h :: hs }) rfl
    obtain ⟨o2, h2, e2⟩ := chain_dead tail hc.2 (sem := sem) (i := i + 1 + body.lines.length)
      (s := { s with ifTrue := false :: ts, ifHit := h :: hs }) (x := false) rfl rfl hd
    exact ⟨_, ppRun_cons_of h0 (ppRun_append_of h1 h2), by simp [e1, e2]⟩
end

/-- Kept text of a trace of selected lines. -/
def traceText (sem : PPSem E) (t : List (E × Line)) : List Str :=
  t.flatMap (fun p => lineText sem p.1 p.2)

mutual
/-- A block in an active state behaves as its C semantics. -/
theorem block_live {sem : PPSem E} (b : Block) (hb : b.Ok) {i : Nat} {s s' : PPState E} {os : List Out}
    (ha : s.ifTrue.all id = true) (h : ppRun sem i s b.lines = .ok (s', os)) :
    s'.env = (b.run sem s.env).1 ∧ s'.ifTrue = s.ifTrue ∧ s'.ifHit = s.ifHit ∧
      codes os = traceText sem (b.run sem s.env).2 := by
  match b, hb with
  | .nil, _ => simp only [Block.lines, ppRun] at h; cases h; simp [Block.run, traceText]
  | .leaf l rest, hb =>
    obtain ⟨s1, o, os', h1, h2, rfl⟩ := ppRun_cons_ok h
    obtain ⟨e1, e2, e3, e4⟩ := ppStep_active hb.1 ha h1
    obtain ⟨f1, f2, f3, f4⟩ := block_live rest hb.2 (by rw [e2]; exact ha) h2
    simp only [Block.run, codes_append, f1, f2, f3, f4, e1, e2, e3, e4, traceText, List.flatMap_cons]
    simp
  | .cond c body chain rest, hb =>
    obtain ⟨s1, o, os', h1, h2, rfl⟩ := ppRun_cons_ok h
    simp only [ppStep, ha, if_true] at h1
    cases h1
    obtain ⟨s2, o1, o2, h3, h4, rfl⟩ := ppRun_append_ok h2
    obtain ⟨s3, o3, o4, h5, h6, rfl⟩ := ppRun_append_ok h4
    by_cases hc : sem.cond s.env c = true
    · rw [hc] at h3
      obtain ⟨f1, f2, f3, f4⟩ := block_live body hb.1 (by simpa using ha) h3
      obtain ⟨os5, h7, e7⟩ := chain_dead chain hb.2.1 (sem := sem) (i := i + 1 + body.lines.length)
        (s := s2) f2 f3 (Or.inl rfl)
      rw [h7] at h5; cases h5
      obtain ⟨g1, g2, g3, g4⟩ := block_live rest hb.2.2 (by simpa using ha) h6
      refine ⟨?_, g2, g3, ?_⟩
      · simp only [Block.run, hc, if_true, g1, f1]
      · simp only [Block.run, hc, if_true, codes_append, f4, e7, g4, blank_nil]
        simp [traceText, f1]
    · have hc' : sem.cond s.env c = false := by simpa using hc
      rw [hc'] at h3
      obtain ⟨os5, h7, e7⟩ := block_dead body hb.1 (sem := sem) (i := i + 1)
        (s := { s with ifTrue := false :: s.ifTrue, ifHit := false :: s.ifHit }) rfl
      rw [h7] at h3; cases h3
      obtain ⟨f1, f2, f3, f4⟩ := chain_live chain hb.2.1 (x := false) rfl rfl ha h5
      obtain ⟨g1, g2, g3, g4⟩ := block_live rest hb.2.2 (by rw [f2]; exact ha) h6
      refine ⟨?_, by rw [g2, f2], by rw [g3, f3], ?_⟩
      · simp only [Block.run, hc', g1, f1]; simp
      · simp only [Block.run, hc', codes_append, f4, e7, g4, blank_nil]
        simp [traceText, f1]
/-- The rest of a conditional none of whose branches was taken so far. -/
theorem chain_live {sem : PPSem E} (c : Chain) (hc : c.Ok) {i : Nat} {s s' : PPState E} {os : List Out}
    {x : Bool} {ts hs : List Bool} (ht : s.ifTrue = x :: ts) (hh : s.ifHit = false :: hs)
    (ha : ts.all id = true) (h : ppRun sem i s c.lines = .ok (s', os)) :
    s'.env = (c.run sem s.env).1 ∧ s'.ifTrue = ts ∧ s'.ifHit = hs ∧
      codes os = traceText sem (c.run sem s.env).2 := by
  match c, hc with
  | .endif, _ =>
    simp [Chain.lines, ppRun, ppStep, ht, hh] at h
    obtain ⟨h1, h2⟩ := h
    subst h1; subst h2
    simp [Chain.run, traceText]
  | .els body, hc =>
    obtain ⟨s1, o, os', h1, h2, rfl⟩ := ppRun_cons_ok h
    simp only [ppStep, ht, hh, ha] at h1
    cases h1
    obtain ⟨s2, o1, o2, h3, h4, rfl⟩ := ppRun_append_ok h2
    obtain ⟨f1, f2, f3, f4⟩ := block_live body hc (by simpa using ha) h3
    simp [ppRun, ppStep, f2, f3] at h4
    obtain ⟨h5, h6⟩ := h4
    subst h5; subst h6
    simp [Chain.run, f1, f4]
  | .elif c body tail, hc =>
    obtain ⟨s1, o, os', h1, h2, rfl⟩ := ppRun_cons_ok h
    simp only [ppStep, ht, hh, ha, Bool.false_or, Bool.not_true] at h1
    cases h1
    obtain ⟨s2, o1, o2, h3, h4, rfl⟩ := ppRun_append_ok h2
    by_cases hcc : sem.cond s.env c = true
    · simp only [hcc] at h3
      obtain ⟨f1, f2, f3, f4⟩ := block_live body hc.1 (by simpa using ha) h3
      obtain ⟨os5, h7, e7⟩ := chain_dead tail hc.2 (sem := sem) (i := i + 1 + body.lines.length)
        (s := s2) f2 f3 (Or.inl rfl)
      rw [h7] at h4; cases h4
      simp [Chain.run, hcc, f1, f4, e7]
    · have hc' : sem.cond s.env c = false := by simpa using hcc
      simp only [hc'] at h3
      obtain ⟨os5, h7, e7⟩ := block_dead body hc.1 (sem := sem) (i := i + 1)
        (s := { s with ifTrue := false :: ts, ifHit := false :: hs }) rfl
      have h3' := h7.symm.trans h3; cases h3'
      obtain ⟨f1, f2, f3, f4⟩ := chain_live tail hc.2 (x := false) rfl rfl ha h4
      simp [Chain.run, hc', f1, f2, f3, f4, e7]
end

/-- Relation between the flag stacks of the implementation and the open conditionals. -/
inductive Rel : List Bool → List Bool → List Frame → Prop
  | base : Rel [true] [] []
  | push {t h : Bool} {ts hs : List Bool} {f : Frame} {fs : List Frame} (r : Rel ts hs fs)
      (ht : t = (f.cur && fs.all Frame.cur)) (hh : fs.all Frame.cur = true → h = f.hit) :
      Rel (t :: ts) (h :: hs) (f :: fs)

theorem Rel.all {ts hs : List Bool} {fs : List Frame} (h : Rel ts hs fs) :
    ts.all id = fs.all Frame.cur := by
  induction h with
  | base => rfl
  | push r ht hh ih =>
    rename_i fs
    simp only [List.all_cons, ih, ht, id]
    cases fs.all Frame.cur <;> simp

/-- The innermost flag tells whether everything enclosing is true. -/
theorem Rel.head {ts hs : List Bool} {fs : List Frame} (h : Rel ts hs fs) :
    ∃ ts', ts = fs.all Frame.cur :: ts' := by
  cases h with
  | base => exact ⟨[], rfl⟩
  | push r ht hh => rename_i ts _ _ _; exact ⟨ts, by simp [ht]⟩

theorem Rel.split {ts hs : List Bool} {fs : List Frame} (h : Rel ts hs fs) :
    (hs = [] ∧ fs = [] ∧ ts = [true]) ∨ ∃ t ts' h hs' f fs', ts = t :: ts' ∧ hs = h :: hs' ∧ fs = f :: fs' ∧
      Rel ts' hs' fs' ∧ t = (f.cur && fs'.all Frame.cur) ∧ (fs'.all Frame.cur = true → h = f.hit) := by
  cases h with
  | base => exact .inl ⟨rfl, rfl, rfl⟩
  | push r ht hh => exact .inr ⟨_, _, _, _, _, _, rfl, rfl, rfl, r, ht, hh⟩

/-- Simulation relation. -/
structure Sim (s : PPState E) (r : Raw E) : Prop where
  env : s.env = r.env
  rel : Rel s.ifTrue s.ifHit r.frames

theorem Sim.init (env : E) : Sim (PPState.init env) ⟨env, []⟩ := ⟨rfl, .base⟩

theorem ppStep_sim {sem : PPSem E} {i : Nat} {s s' : PPState E} {r : Raw E} {l : Line}
    {o : Option Out} (hs : Sim s r) (h : ppStep sem i s l = .ok (s', o)) :
    Sim s' (r.step sem l) ∧ codes o.toList = r.text sem l ∧
      o.toList.length + (if r.drops sem l then 1 else 0) = 1 := by
  obtain ⟨henv, hrel⟩ := hs
  obtain ⟨ts', hts⟩ := hrel.head
  have hall := hrel.all
  cases hact : r.Active with
  | true =>
    have hact' : r.frames.all Frame.cur = true := hact
    have ha : s.ifTrue.all id = true := by rw [hall]; exact hact
    by_cases hp : Plain l
    · obtain ⟨e1, e2, e3, e4⟩ := ppStep_active hp ha h
      have hst : r.step sem l = ⟨lineEnv sem r.env l, r.frames⟩ := by
        cases l <;> first | exact hp.elim | simp [Raw.step, hact]
      refine ⟨⟨?_, ?_⟩, ?_, ?_⟩
      · rw [e1, henv, hst]
      · rw [e2, e3, hst]; exact hrel
      · rw [e4, henv]; simp [Raw.text, hact]
      · cases l <;> first | exact hp.elim | skip
        all_goals simp only [ppStep, hts, hact'] at h
        case pragma t =>
          have hts' : ts'.all id = true := by
            rw [hts, List.all_cons, Bool.and_eq_true] at ha; exact ha.2
          simp only [hts', if_true, henv] at h
          split at h
          · rename_i hn
            cases h; simp [Raw.drops, hn]
          · rename_i txt hn
            split at h
            · cases h
            · cases h; simp [Raw.drops, hn, hact]
        all_goals first | (cases h; simp [Raw.drops, hact])
    · cases l <;> try exact (hp trivial).elim
      case dif c =>
        simp only [ppStep, ha, if_true] at h
        cases h
        refine ⟨⟨henv, ?_⟩, ?_, ?_⟩
        · exact .push hrel (by simp [henv, hact']) (by simp [henv])
        · simp [Raw.text, lineText]
        · simp [Raw.drops]
      case badName => simp [ppStep] at h
      all_goals
        rcases hrel.split with ⟨hh, _, _⟩ | ⟨t, ts, h0, hs, f, fs, ht, hh, hfr, h1, h2, h3⟩
        · simp [ppStep, hh] at h
        · skip
          have h1a := h1.all
          simp only [ppStep, hh, ht] at h
          cases h
          have hfs : fs.all Frame.cur = true := by
            rw [hfr] at hact'; simp only [List.all_cons, Bool.and_eq_true] at hact'; exact hact'.2
          have h3' := h3 hfs
          refine ⟨⟨by simp [Raw.step, hfr, henv], ?_⟩, ?_, ?_⟩
          · simp only [Raw.step, hfr]
            first
            | exact h1
            | (refine .push h1 ?_ ?_ <;> simp [h1a, hfs, h3', henv] <;> cases f.hit <;> simp)
          · simp [Raw.text, lineText]
          · simp [Raw.drops]
  | false =>
    have hact' : r.frames.all Frame.cur = false := hact
    have ha : s.ifTrue.all id = false := by rw [hall]; exact hact
    rw [hact'] at hts
    by_cases hp : Plain l
    · obtain ⟨o', e1, e2⟩ := ppStep_dead (sem := sem) (i := i) hp hts
      have h' := e1.symm.trans h
      cases h'
      have hst : r.step sem l = r := by
        cases l <;> first | exact hp.elim | simp [Raw.step, hact]
      refine ⟨?_, ?_, ?_⟩
      · rw [hst]; exact ⟨henv, hrel⟩
      · rw [e2]; simp [Raw.text, hact]
      · cases l <;> first | exact hp.elim | skip
        all_goals simp only [ppStep, hts] at e1
        all_goals (cases e1; simp [Raw.drops, hact])
    · cases l <;> try exact (hp trivial).elim
      case dif c =>
        simp only [ppStep, ha] at h
        cases h
        refine ⟨⟨henv, ?_⟩, ?_, ?_⟩
        · exact .push hrel (by simp [hact']) (by simp [hact'])
        · simp [Raw.text, hact]
        · simp [Raw.drops]
      case badName => simp [ppStep] at h
      all_goals
        rcases hrel.split with ⟨hh, _, _⟩ | ⟨t, ts, h0, hs, f, fs, ht, hh, hfr, h1, h2, h3⟩
        · simp [ppStep, hh] at h
        · skip
          have h1a := h1.all
          simp only [ppStep, hh, ht] at h
          cases h
          refine ⟨⟨by simp [Raw.step, hfr, henv], ?_⟩, ?_, ?_⟩
          · simp only [Raw.step, hfr]
            first
            | exact h1
            | (refine .push h1 ?_ ?_
               · cases hfs : fs.all Frame.cur
                 · simp [h1a, hfs]
                 · simp [h1a, hfs, h3 hfs, henv]; try (cases f.hit <;> simp)
               · intro hfs
                 simp [h1a, hfs, h3 hfs, henv]; try (cases f.hit <;> simp))
          · simp [Raw.text, hact]
          · simp [Raw.drops]

theorem ppRun_sim {sem : PPSem E} {ls : List Line} : ∀ {i : Nat} {s s' : PPState E} {r : Raw E}
    {os : List Out}, Sim s r → ppRun sem i s ls = .ok (s', os) →
    Sim s' (r.run sem ls).1 ∧ codes os = (r.run sem ls).2 ∧
      os.length + r.dropped sem ls = ls.length := by
  induction ls with
  | nil => intro i s s' r os hs h; simp only [ppRun] at h; cases h; exact ⟨hs, rfl, rfl⟩
  | cons l ls ih =>
    intro i s s' r os hs h
    obtain ⟨s1, o, os', h1, h2, rfl⟩ := ppRun_cons_ok h
    obtain ⟨a1, a2, a3⟩ := ppStep_sim hs h1
    obtain ⟨b1, b2, b3⟩ := ih a1 h2
    refine ⟨b1, ?_, ?_⟩
    · simp [Raw.run, a2, b2]
    · simp only [List.length_append, Raw.dropped, List.length_cons]; omega

/-! ### Depth of the flag stacks -/

theorem ppStep_depth {sem : PPSem E} {i : Nat} {s s' : PPState E} {l : Line} {o : Option Out}
    (hw : s.ifTrue.length = s.ifHit.length + 1) (h : ppStep sem i s l = .ok (s', o)) :
    s'.ifTrue.length = s'.ifHit.length + 1 ∧
      s'.ifHit.length + (if isEnd l then 1 else 0) = s.ifHit.length + (if isOpen l then 1 else 0) := by
  cases l with
  | dif c => simp only [ppStep] at h; cases h; simp [hw, isEnd, isOpen]
  | badName => simp [ppStep] at h
  | other => simp only [ppStep] at h; cases h; simp [hw, isEnd, isOpen]
  | delif c =>
    simp only [ppStep] at h
    split at h
    · rename_i h1 h2; cases h; simp_all [isEnd, isOpen]
    · cases h
  | delse =>
    simp only [ppStep] at h
    split at h
    · rename_i h1 h2; cases h; simp_all [isEnd, isOpen]
    · cases h
  | dendif =>
    simp only [ppStep] at h
    split at h
    · rename_i h1 h2; cases h; simp_all [isEnd, isOpen]
    · cases h
  | code c =>
    simp only [ppStep] at h
    split at h <;> cases h <;> simp_all [isEnd, isOpen]
  | define n r =>
    simp only [ppStep] at h
    split at h <;> cases h <;> simp_all [isEnd, isOpen]
  | undef n =>
    simp only [ppStep] at h
    split at h <;> cases h <;> simp_all [isEnd, isOpen]
  | pragma t =>
    simp only [ppStep] at h
    split at h
    · cases h
    · cases h; simp_all [isEnd, isOpen]
    · split at h
      · cases h; simp_all [isEnd, isOpen]
      · split at h
        · cases h
        · rename_i hd
          cases h
          obtain ⟨_, h2, h3⟩ := doPack_frame hd
          simp_all [isEnd, isOpen]

theorem ppRun_depth {sem : PPSem E} {ls : List Line} : ∀ {i : Nat} {s s' : PPState E}
    {os : List Out}, s.ifTrue.length = s.ifHit.length + 1 → ppRun sem i s ls = .ok (s', os) →
    s'.ifTrue.length = s'.ifHit.length + 1 ∧
      s'.ifHit.length + ls.countP isEnd = s.ifHit.length + ls.countP isOpen := by
  induction ls with
  | nil => intro i s s' os hw h; simp only [ppRun] at h; cases h; exact ⟨hw, rfl⟩
  | cons l ls ih =>
    intro i s s' os hw h
    obtain ⟨s1, o, os', h1, h2, rfl⟩ := ppRun_cons_ok h
    obtain ⟨a1, a2⟩ := ppStep_depth hw h1
    obtain ⟨b1, b2⟩ := ih a1 h2
    refine ⟨b1, ?_⟩
    simp only [List.countP_cons]
    omega

theorem ppStep_error {sem : PPSem E} {i : Nat} {s : PPState E} {l : Line} {e : PyErr}
    (hw : s.ifTrue.length = s.ifHit.length + 1) (h : ppStep sem i s l = .error e) :
    (l = .badName ∧ e = .attributeError) ∨ (∃ t, l = .pragma t) ∨
      (needsIf l = true ∧ s.ifHit = [] ∧ e = .indexError) := by
  have hne : s.ifTrue ≠ [] := by intro h0; simp [h0] at hw
  cases l with
  | dif c => simp [ppStep] at h
  | badName => simp only [ppStep] at h; cases h; exact .inl ⟨rfl, rfl⟩
  | other => simp [ppStep] at h
  | pragma t => exact .inr (.inl ⟨t, rfl⟩)
  | code c => simp only [ppStep] at h; split at h <;> first | (cases h; done) | contradiction
  | define n r => simp only [ppStep] at h; split at h <;> first | (cases h; done) | contradiction
  | undef n => simp only [ppStep] at h; split at h <;> first | (cases h; done) | contradiction
  | delif c =>
    right; right
    simp only [ppStep] at h
    split at h
    · cases h
    · rename_i hx; cases h
      refine ⟨rfl, ?_, rfl⟩
      match hh : s.ifHit, ht : s.ifTrue with
      | [], _ => rfl
      | h0 :: hs, t :: ts => exact (hx _ _ _ _ hh ht).elim
      | h0 :: hs, [] => exact (hne ht).elim
  | delse =>
    right; right
    simp only [ppStep] at h
    split at h
    · cases h
    · rename_i hx; cases h
      refine ⟨rfl, ?_, rfl⟩
      match hh : s.ifHit, ht : s.ifTrue with
      | [], _ => rfl
      | h0 :: hs, t :: ts => exact (hx _ _ _ _ hh ht).elim
      | h0 :: hs, [] => exact (hne ht).elim
  | dendif =>
    right; right
    simp only [ppStep] at h
    split at h
    · cases h
    · rename_i hx; cases h
      refine ⟨rfl, ?_, rfl⟩
      match hh : s.ifHit, ht : s.ifTrue with
      | [], _ => rfl
      | h0 :: hs, t :: ts => exact (hx _ _ _ _ hh ht).elim
      | h0 :: hs, [] => exact (hne ht).elim

/-- Where an error comes from. -/
theorem ppRun_error {sem : PPSem E} {ls : List Line} : ∀ {i : Nat} {s : PPState E} {e : PyErr},
    ppRun sem i s ls = .error e →
    ∃ a l b s1 o1, ls = a ++ l :: b ∧ ppRun sem i s a = .ok (s1, o1) ∧
      ppStep sem (i + a.length) s1 l = .error e := by
  induction ls with
  | nil => intro i s e h; simp [ppRun] at h
  | cons l ls ih =>
    intro i s e h
    simp only [ppRun] at h
    split at h
    · rename_i h1; cases h
      exact ⟨[], l, ls, s, [], rfl, rfl, by simpa using h1⟩
    · rename_i s1 o h1
      split at h
      · rename_i h2
        cases h
        obtain ⟨a, l', b, s2, o2, rfl, h3, h4⟩ := ih h2
        refine ⟨l :: a, l', b, s2, _, rfl, ppRun_cons_of h1 h3, ?_⟩
        rw [← h4]; congr 1; simp; omega
      · cases h

theorem ppStep_needsIf {sem : PPSem E} {i : Nat} {s : PPState E} {l : Line}
    (hl : needsIf l = true) (hs : s.ifHit = []) : ppStep sem i s l = .error .indexError := by
  cases l <;> simp [needsIf] at hl <;> simp [ppStep, hs]

/-! ### Pack list -/

theorem packEffect_list {i : Nat} {s s' : PPState E} {pf : Bool} {pp : Option Str} {v : Option Nat}
    {x : Option Str} (h : packEffect i s pf pp v x = .ok s') :
    s'.packList = s.packList ++ [(i, s'.packing)] := by
  unfold packEffect at h
  simp only at h
  split at h
  · cases h; simp
  · split at h
    · split at h
      · cases h
      · split at h
        · cases h; simp
        · split at h
          · cases h
          · cases h; simp
    · cases h; simp

theorem doPack_list {i : Nat} {s s' : PPState E} {t : Str} (h : doPack i s t = .ok s') :
    s'.packList = s.packList ++ [(i, s'.packing)] := packEffect_list h

/-- A line either leaves everything about packing alone or appends the new packing at its line. -/
theorem ppStep_pack {sem : PPSem E} {i : Nat} {s s' : PPState E} {l : Line} {o : Option Out}
    (h : ppStep sem i s l = .ok (s', o)) :
    (s'.packList = s.packList ∧ s'.packing = s.packing ∧ s'.packStack = s.packStack) ∨
    ((∃ t, l = .pragma t) ∧ s'.packList = s.packList ++ [(i, s'.packing)]) := by
  cases l with
  | pragma t =>
    simp only [ppStep] at h
    split at h
    · cases h
    · cases h; exact .inl ⟨rfl, rfl, rfl⟩
    · split at h
      · cases h; exact .inl ⟨rfl, rfl, rfl⟩
      · split at h
        · cases h
        · rename_i hd
          cases h
          exact .inr ⟨⟨t, rfl⟩, doPack_list hd⟩
  | dif c => simp only [ppStep] at h; cases h; exact .inl ⟨rfl, rfl, rfl⟩
  | badName => simp [ppStep] at h
  | other => simp only [ppStep] at h; cases h; exact .inl ⟨rfl, rfl, rfl⟩
  | _ => simp only [ppStep] at h; split at h <;> cases h <;> exact .inl ⟨rfl, rfl, rfl⟩

/-- The pack list records the current packing last, with line numbers below `i`. -/
structure PackInv (i : Nat) (s : PPState E) : Prop where
  last : ∃ l k, s.packList = l ++ [(k, s.packing)]
  lt : ∀ p ∈ s.packList, p.1 < i ∨ p.1 = 0

theorem PackInv.init (env : E) : PackInv 0 (PPState.init env) :=
  ⟨⟨[], 0, rfl⟩, by simp [PPState.init]⟩

theorem ppStep_packInv {sem : PPSem E} {i : Nat} {s s' : PPState E} {l : Line} {o : Option Out}
    (hi : PackInv i s) (h : ppStep sem i s l = .ok (s', o)) : PackInv (i + 1) s' := by
  rcases ppStep_pack h with ⟨h1, h2, _⟩ | ⟨_, h1⟩
  · refine ⟨?_, ?_⟩
    · rw [h1, h2]; exact hi.last
    · rw [h1]; intro p hp; rcases hi.lt p hp with h | h <;> omega
  · refine ⟨⟨_, _, h1⟩, ?_⟩
    rw [h1]; intro p hp
    rcases List.mem_append.1 hp with hp | hp
    · rcases hi.lt p hp with h | h <;> omega
    · simp at hp; subst hp; left; simp

theorem ppRun_packInv {sem : PPSem E} {ls : List Line} : ∀ {i : Nat} {s s' : PPState E}
    {os : List Out}, PackInv i s → ppRun sem i s ls = .ok (s', os) → PackInv (i + ls.length) s' := by
  induction ls with
  | nil => intro i s s' os hi h; simp only [ppRun] at h; cases h; simpa using hi
  | cons l ls ih =>
    intro i s s' os hi h
    obtain ⟨s1, o, os', h1, h2, rfl⟩ := ppRun_cons_ok h
    have := ih (ppStep_packInv hi h1) h2
    rw [show i + (l :: ls).length = i + 1 + ls.length by simp; omega]; exact this

/-- Running lines only appends entries with later line numbers. -/
theorem ppRun_packList {sem : PPSem E} {ls : List Line} : ∀ {i : Nat} {s s' : PPState E}
    {os : List Out}, ppRun sem i s ls = .ok (s', os) →
    ∃ ext, s'.packList = s.packList ++ ext ∧ ∀ p ∈ ext, i ≤ p.1 := by
  induction ls with
  | nil => intro i s s' os h; simp only [ppRun] at h; cases h; exact ⟨[], by simp⟩
  | cons l ls ih =>
    intro i s s' os h
    obtain ⟨s1, o, os', h1, h2, rfl⟩ := ppRun_cons_ok h
    obtain ⟨ext, h3, h4⟩ := ih h2
    rcases ppStep_pack h1 with ⟨h5, _, _⟩ | ⟨_, h5⟩
    · exact ⟨ext, by rw [h3, h5], fun p hp => by have := h4 p hp; omega⟩
    · refine ⟨(i, s1.packing) :: ext, by rw [h3, h5]; simp, ?_⟩
      intro p hp
      rcases List.mem_cons.1 hp with hp | hp
      · subst hp; exact Nat.le_refl _
      · have := h4 p hp; omega

theorem packingAtFrom_app {acc : Option Nat} {line k : Nat} {v : Option Nat}
    {l ext : List (Nat × Option Nat)} (h1 : ∀ p ∈ l ++ [(k, v)], p.1 ≤ line)
    (h2 : ∀ p ∈ ext, line < p.1) : packingAtFrom acc line (l ++ [(k, v)] ++ ext) = v := by
  induction l generalizing acc with
  | nil =>
    have : k ≤ line := h1 (k, v) (by simp)
    cases ext with
    | nil => simp [packingAtFrom, this]
    | cons p ext =>
      have h3 := h2 p (by simp)
      have : ¬ p.1 ≤ line := by omega
      simp_all [packingAtFrom]
      intro h4; omega
  | cons p l ih =>
    have h3 : p.1 ≤ line := h1 p (by simp)
    simp only [List.cons_append, packingAtFrom, h3, if_true]
    exact ih (fun q hq => h1 q (by simp at hq ⊢; right; exact hq))

end Pyclib
