import Verif.Spec.File
import Verif.Props.Source
/-! The line machine on well nested text, entry by entry. -/
namespace Pyclib
open Spec

variable {E : Type}

mutual
/-- The lines of a skipped block. -/
def Spec.Block.skips (E : Type) : Block → List (Entry E)
  | .nil => []
  | .leaf l rest => .skip l :: rest.skips E
  | .cond _ body chain rest => .cond :: (body.skips E ++ (chain.skips E ++ rest.skips E))
/-- The lines of a skipped chain. -/
def Spec.Chain.skips (E : Type) : Chain → List (Entry E)
  | .endif => [.cond]
  | .els body => .cond :: (body.skips E ++ [.cond])
  | .elif _ body tail => .cond :: (body.skips E ++ tail.skips E)
end

mutual
/-- What becomes of the lines of a block. -/
def Spec.Block.trace (sem : PPSem E) (env : E) : Block → List (Entry E)
  | .nil => []
  | .leaf l rest => .sel env l :: rest.trace sem (lineEnv sem env l)
  | .cond c body chain rest =>
    .cond :: (if sem.cond env c then body.trace sem env ++ (chain.skips E ++ rest.trace sem (body.run sem env).1)
      else body.skips E ++ (chain.trace sem env ++ rest.trace sem (chain.run sem env).1))
/-- What becomes of the lines of a chain. -/
def Spec.Chain.trace (sem : PPSem E) (env : E) : Chain → List (Entry E)
  | .endif => [.cond]
  | .els body => .cond :: (body.trace sem env ++ [.cond])
  | .elif c body tail =>
    .cond :: (if sem.cond env c then body.trace sem env ++ tail.skips E else body.skips E ++ tail.trace sem env)
end

/-- One entry after the other. -/
def andThen (r : Except PyErr (PPState E × List Out)) (f : PPState E → Except PyErr (PPState E × List Out)) :
    Except PyErr (PPState E × List Out) :=
  match r with
  | .error e => .error e
  | .ok (s, os) =>
    match f s with
    | .error e => .error e
    | .ok (s', os') => .ok (s', os ++ os')

theorem andThen_ok (s : PPState E) (os : List Out) (f : PPState E → Except PyErr (PPState E × List Out)) :
    andThen (.ok (s, os)) f = match f s with | .error e => .error e | .ok (s', os') => .ok (s', os ++ os') := rfl

theorem andThen_assoc (r : Except PyErr (PPState E × List Out)) (f g : PPState E → Except PyErr (PPState E × List Out)) :
    andThen (andThen r f) g = andThen r (fun s => andThen (f s) g) := by
  unfold andThen
  cases r with
  | error e => rfl
  | ok p =>
    simp only
    cases f p.1 with
    | error e => rfl
    | ok q =>
      simp only
      cases g q.1 with
      | error e => rfl
      | ok t => simp

/-- The output for a skipped line. -/
def skipOut : Line → Option Out
  | .define _ _ | .undef _ | .pragma _ => none
  | _ => some .blank

/-- One entry. -/
def trStep (sem : PPSem E) (i : Nat) (s : PPState E) : Entry E → Except PyErr (PPState E × Option Out)
  | .cond => .ok (s, some .blank)
  | .skip l => .ok (s, skipOut l)
  | .sel _ l => ppStep sem i s l

/-- All entries. -/
def trRun (sem : PPSem E) (i : Nat) (s : PPState E) : List (Entry E) → Except PyErr (PPState E × List Out)
  | [] => .ok (s, [])
  | e :: es =>
    match trStep sem i s e with
    | .error e => .error e
    | .ok (s', o) => andThen (.ok (s', o.toList)) (fun s' => trRun sem (i + 1) s' es)

theorem ppRun_append (sem : PPSem E) (a b : List Line) : ∀ (i : Nat) (s : PPState E),
    ppRun sem i s (a ++ b) = andThen (ppRun sem i s a) (fun s => ppRun sem (i + a.length) s b) := by
  induction a with
  | nil =>
    intro i s
    simp only [List.nil_append, ppRun, andThen_ok, List.length_nil, Nat.add_zero]
    cases ppRun sem i s b <;> rfl
  | cons l a ih =>
    intro i s
    simp only [List.cons_append, ppRun]
    cases ppStep sem i s l with
    | error e => rfl
    | ok p =>
      simp only [ih, List.length_cons, Nat.add_right_comm, Nat.add_assoc, Nat.add_comm 1]
      cases ppRun sem (i + 1) p.1 a with
      | error e => rfl
      | ok q =>
        simp only [andThen]
        cases ppRun sem (i + (a.length + 1)) q.1 b <;> simp

theorem trRun_append (sem : PPSem E) (a b : List (Entry E)) : ∀ (i : Nat) (s : PPState E),
    trRun sem i s (a ++ b) = andThen (trRun sem i s a) (fun s => trRun sem (i + a.length) s b) := by
  induction a with
  | nil =>
    intro i s
    simp only [List.nil_append, trRun, andThen_ok, List.length_nil, Nat.add_zero]
    cases trRun sem i s b <;> rfl
  | cons l a ih =>
    intro i s
    simp only [List.cons_append, trRun]
    cases trStep sem i s l with
    | error e => rfl
    | ok p =>
      simp only [andThen_assoc]
      congr 1
      funext s'
      rw [ih]
      simp only [List.length_cons, Nat.add_assoc, Nat.add_comm 1]

mutual
theorem block_skips_length (b : Block) : (b.skips E).length = b.lines.length := by
  match b with
  | .nil => rfl
  | .leaf l rest => simp [Block.skips, Block.lines, block_skips_length rest]
  | .cond c body chain rest =>
    simp [Block.skips, Block.lines, block_skips_length body, chain_skips_length chain, block_skips_length rest]
theorem chain_skips_length (c : Chain) : (c.skips E).length = c.lines.length := by
  match c with
  | .endif => rfl
  | .els body => simp [Chain.skips, Chain.lines, block_skips_length body]
  | .elif c body tail => simp [Chain.skips, Chain.lines, block_skips_length body, chain_skips_length tail]
end

mutual
theorem block_trace_length (sem : PPSem E) (b : Block) : ∀ env, (b.trace sem env).length = b.lines.length := by
  intro env
  match b with
  | .nil => rfl
  | .leaf l rest => simp [Block.trace, Block.lines, block_trace_length sem rest]
  | .cond c body chain rest =>
    simp only [Block.trace, Block.lines, List.length_cons]
    split <;> simp [block_skips_length, block_trace_length sem body, chain_skips_length,
      chain_trace_length sem chain, block_trace_length sem rest]
theorem chain_trace_length (sem : PPSem E) (c : Chain) : ∀ env, (c.trace sem env).length = c.lines.length := by
  intro env
  match c with
  | .endif => rfl
  | .els body => simp [Chain.trace, Chain.lines, block_trace_length sem body]
  | .elif c body tail =>
    simp only [Chain.trace, Chain.lines, List.length_cons]
    split <;> simp [block_skips_length, block_trace_length sem body, chain_skips_length, chain_trace_length sem tail]
end

/-- Output for skipped lines. -/
def skipOuts (es : List (Entry E)) : List Out :=
  es.flatMap fun e => match e with
    | .cond => [.blank]
    | .skip l => (skipOut l).toList
    | .sel _ _ => []

/-- No line is selected. -/
def NoSel (es : List (Entry E)) : Prop := ∀ e ∈ es, ∀ env l, e ≠ .sel env l

theorem trRun_skips (sem : PPSem E) : ∀ (es : List (Entry E)), NoSel es → ∀ (i : Nat) (s : PPState E),
    trRun sem i s es = .ok (s, skipOuts es)
  | [], _, _, _ => rfl
  | .cond :: es, h, i, s => by
    have := trRun_skips sem es (fun e he => h e (by simp [he])) (i + 1) s
    simp only [trRun, trStep, andThen_ok, this, skipOuts, List.flatMap_cons]
    rfl
  | .skip l :: es, h, i, s => by
    have := trRun_skips sem es (fun e he => h e (by simp [he])) (i + 1) s
    simp only [trRun, trStep, andThen_ok, this, skipOuts, List.flatMap_cons]
  | .sel env l :: es, h, _, _ => absurd rfl (h _ (by simp) env l)

mutual
theorem block_noSel (b : Block) : NoSel (b.skips E) := by
  match b with
  | .nil => simp [Block.skips, NoSel]
  | .leaf l rest =>
    have := block_noSel rest
    simpa [Block.skips, NoSel] using this
  | .cond c body chain rest =>
    have h1 := block_noSel body
    have h2 := chain_noSel chain
    have h3 := block_noSel rest
    intro e he
    simp only [Block.skips, List.mem_cons, List.mem_append] at he
    rcases he with rfl | he | he | he
    · simp
    · exact h1 e he
    · exact h2 e he
    · exact h3 e he
theorem chain_noSel (c : Chain) : NoSel (c.skips E) := by
  match c with
  | .endif => simp [Chain.skips, NoSel]
  | .els body =>
    have h1 := block_noSel body
    intro e he
    simp only [Chain.skips, List.mem_cons, List.mem_append, List.not_mem_nil, or_false] at he
    rcases he with rfl | he | rfl
    · simp
    · exact h1 e he
    · simp
  | .elif c body tail =>
    have h1 := block_noSel body
    have h2 := chain_noSel tail
    intro e he
    simp only [Chain.skips, List.mem_cons, List.mem_append] at he
    rcases he with rfl | he | he
    · simp
    · exact h1 e he
    · exact h2 e he
end

theorem skipOuts_append (a b : List (Entry E)) : skipOuts (a ++ b) = skipOuts a ++ skipOuts b := by simp [skipOuts]
theorem skipOuts_cond (a : List (Entry E)) : skipOuts (.cond :: a) = .blank :: skipOuts a := by simp [skipOuts]

mutual
/-- A skipped block. -/
theorem block_skip (sem : PPSem E) (b : Block) (hb : b.Ok) {i : Nat} {s : PPState E} {ts : List Bool}
    (hd : s.ifTrue = false :: ts) : ppRun sem i s b.lines = .ok (s, skipOuts (b.skips E)) := by
  match b, hb with
  | .nil, _ => rfl
  | .leaf l rest, hb =>
    have h1 := block_skip sem rest hb.2 (i := i + 1) hd
    have h0 : ppStep sem i s l = .ok (s, skipOut l) := by
      have := hb.1
      cases l <;> first | exact this.elim | simp [ppStep, hd, skipOut]
    simp only [Block.lines, ppRun, h0, h1, Block.skips, skipOuts, List.flatMap_cons]
  | .cond c body chain rest, hb =>
    have h0 : ppStep sem i s (.dif c) =
        .ok ({ s with ifTrue := false :: s.ifTrue, ifHit := false :: s.ifHit }, some .blank) := by
      simp [ppStep, hd]
    have h1 := block_skip sem body hb.1 (i := i + 1)
      (s := { s with ifTrue := false :: s.ifTrue, ifHit := false :: s.ifHit }) rfl
    have h2 := chain_skip sem chain hb.2.1 (i := i + 1 + body.lines.length)
      (s := { s with ifTrue := false :: s.ifTrue, ifHit := false :: s.ifHit }) (x := false)
      (ts := s.ifTrue) (h := false) (hs := s.ifHit) rfl rfl (Or.inr (by simp [hd]))
    have h3 := block_skip sem rest hb.2.2 (i := i + 1 + body.lines.length + chain.lines.length) hd
    simp only [Block.lines, ppRun, h0, ppRun_append, h1, Block.skips, andThen_ok, h2, h3, skipOuts_append, skipOuts_cond]
    rfl
/-- The rest of a conditional after a taken branch, or inside a skipped region. -/
theorem chain_skip (sem : PPSem E) (c : Chain) (hc : c.Ok) {i : Nat} {s : PPState E} {x h : Bool}
    {ts hs : List Bool} (ht : s.ifTrue = x :: ts) (hh : s.ifHit = h :: hs)
    (hd : h = true ∨ ts.all id = false) :
    ppRun sem i s c.lines = .ok ({ s with ifTrue := ts, ifHit := hs }, skipOuts (c.skips E)) := by
  match c, hc with
  | .endif, _ => simp [Chain.lines, ppRun, ppStep, ht, hh, Chain.skips, skipOuts]
  | .els body, hc =>
    have h0 : ppStep sem i s .delse =
        .ok ({ s with ifTrue := false :: ts, ifHit := true :: hs }, some .blank) := by
      have : (!h && ts.all id) = false := by rcases hd with hd | hd <;> simp [hd]
      simp [ppStep, ht, hh] ; simpa using this
    have h1 := block_skip sem body hc (i := i + 1) (s := { s with ifTrue := false :: ts, ifHit := true :: hs }) rfl
    have h2 : ppRun sem (i + 1 + body.lines.length) { s with ifTrue := false :: ts, ifHit := true :: hs }
        [.dendif] = .ok ({ s with ifTrue := ts, ifHit := hs }, [.blank]) := by
      simp [ppRun, ppStep]
    simp only [Chain.lines, ppRun, h0, ppRun_append, h1, Chain.skips, andThen_ok, h2, skipOuts_append, skipOuts_cond]
    rfl
  | .elif c body tail, hc =>
    have h0 : ppStep sem i s (.delif c) =
        .ok ({ s with ifTrue := false :: ts, ifHit := h :: hs }, some .blank) := by
      have : (h || !ts.all id) = true := by rcases hd with hd | hd <;> simp [hd]
      simp only [ppStep, ht, hh, this, if_true, Bool.or_false]
    have h1 := block_skip sem body hc.1 (i := i + 1) (s := { s with ifTrue := false :: ts, ifHit := h :: hs }) rfl
    have h2 := chain_skip sem tail hc.2 (i := i + 1 + body.lines.length)
      (s := { s with ifTrue := false :: ts, ifHit := h :: hs }) (x := false) rfl rfl hd
    simp only [Chain.lines, ppRun, h0, ppRun_append, h1, Chain.skips, andThen_ok, h2, skipOuts_append, skipOuts_cond]
    rfl
end

/-- The same state with other flags. -/
def PPState.flags (s : PPState E) (a b : List Bool) : PPState E := { s with ifTrue := a, ifHit := b }

/-- The same result with other flags. -/
def reFlag {α : Type} (a b : List Bool) (r : Except PyErr (PPState E × α)) : Except PyErr (PPState E × α) :=
  match r with
  | .error e => .error e
  | .ok (s, o) => .ok (s.flags a b, o)

theorem packEffect_flags (i : Nat) (s : PPState E) (p : Bool) (pp : Option Str) (v : Option Nat) (id : Option Str)
    (a b : List Bool) : packEffect i (s.flags a b) p pp v id = (packEffect i s p pp v id).map (·.flags a b) := by
  unfold packEffect
  split
  · rfl
  · split
    · simp only [PPState.flags]
      cases id with
      | none =>
        by_cases h : s.packStack = []
        · simp only [h, if_true]; rfl
        · simp only [h, if_false]
          cases v with
          | some v => rfl
          | none => simp only; cases s.packStack.dropLast.getLast? <;> rfl
      | some x =>
        simp only
        cases v with
        | some v => rfl
        | none => simp only; cases (packTruncate x s.packStack).getLast? <;> rfl
    · rfl

/-- On plain lines the flags play no role as long as all of them are true. -/
theorem ppStep_flags (sem : PPSem E) (i : Nat) (s : PPState E) (l : Line) (hl : Plain l)
    (ha : s.ifTrue.all id = true) (hne : s.ifTrue ≠ []) (a b : List Bool) (ha' : a.all id = true) (hne' : a ≠ []) :
    ppStep sem i (s.flags a b) l = reFlag a b (ppStep sem i s l) := by
  obtain ⟨ts, e1⟩ : ∃ ts, s.ifTrue = true :: ts := by
    cases h : s.ifTrue with
    | nil => exact absurd h hne
    | cons t ts => rw [h] at ha; simp at ha; exact ⟨ts, by rw [ha.1]⟩
  obtain ⟨us, e2⟩ : ∃ us, a = true :: us := by
    cases h : a with
    | nil => exact absurd h hne'
    | cons t ts => rw [h] at ha'; simp at ha'; exact ⟨ts, by rw [ha'.1]⟩
  have t1 : ts.all id = true := by rw [e1] at ha; simpa using ha
  have t2 : us.all id = true := by rw [e2] at ha'; simpa using ha'
  cases l with
  | pragma r =>
    simp only [ppStep, PPState.flags, e1, e2, t1, t2, if_true]
    cases packMatch (sem.expand s.env r) with
    | none => rfl
    | some txt =>
      simp only [doPack]
      have := packEffect_flags i s (decide ((((splitOnC ',' txt).map strip).head?) = some c%"pop"))
        (packOpts ((splitOnC ',' txt).map strip) (none, none, none)).1
        (packOpts ((splitOnC ',' txt).map strip) (none, none, none)).2.1
        (packOpts ((splitOnC ',' txt).map strip) (none, none, none)).2.2 (true :: us) b
      simp only [PPState.flags] at this
      rw [this]
      cases packEffect i s (decide ((((splitOnC ',' txt).map strip).head?) = some c%"pop"))
        (packOpts ((splitOnC ',' txt).map strip) (none, none, none)).1
        (packOpts ((splitOnC ',' txt).map strip) (none, none, none)).2.1
        (packOpts ((splitOnC ',' txt).map strip) (none, none, none)).2.2 <;> rfl
  | code t => simp only [ppStep, PPState.flags, e1, e2]; rfl
  | define n r => simp only [ppStep, PPState.flags, e1, e2, t1, t2]; rfl
  | undef n => simp only [ppStep, PPState.flags, e1, e2]; rfl
  | other => rfl
  | dif _ => exact hl.elim
  | delif _ => exact hl.elim
  | delse => exact hl.elim
  | dendif => exact hl.elim
  | badName => exact hl.elim

/-- The selected lines are plain. -/
def SelPlain (es : List (Entry E)) : Prop := ∀ e ∈ es, ∀ env l, e = .sel env l → Plain l

theorem trRun_flags (sem : PPSem E) (a b : List Bool) (ha' : a.all id = true) (hne' : a ≠ []) :
    ∀ (es : List (Entry E)), SelPlain es → ∀ (i : Nat) (s : PPState E), s.ifTrue.all id = true → s.ifTrue ≠ [] →
      trRun sem i (s.flags a b) es = reFlag a b (trRun sem i s es) ∧
        ∀ s' os, trRun sem i s es = .ok (s', os) → s'.ifTrue = s.ifTrue ∧ s'.ifHit = s.ifHit
  | [], _, _, _, _, _ => ⟨rfl, by intro s' os h; cases h; exact ⟨rfl, rfl⟩⟩
  | e :: es, hp, i, s, ha, hne => by
    have key : trStep sem i (s.flags a b) e = reFlag a b (trStep sem i s e) ∧
        ∀ s' o, trStep sem i s e = .ok (s', o) → s'.ifTrue = s.ifTrue ∧ s'.ifHit = s.ifHit := by
      cases e with
      | cond => exact ⟨rfl, by intro s' o h; cases h; exact ⟨rfl, rfl⟩⟩
      | skip l => exact ⟨rfl, by intro s' o h; cases h; exact ⟨rfl, rfl⟩⟩
      | sel env l =>
        have hl := hp _ (by simp) env l rfl
        refine ⟨ppStep_flags sem i s l hl ha hne a b ha' hne', ?_⟩
        intro s' o h
        obtain ⟨_, h1, h2, _⟩ := ppStep_active hl ha h
        exact ⟨h1, h2⟩
    simp only [trRun, key.1]
    cases e1 : trStep sem i s e with
    | error er => exact ⟨rfl, by intro s' os h; cases h⟩
    | ok p =>
      obtain ⟨s1, o⟩ := p
      obtain ⟨h1, h2⟩ := key.2 s1 o e1
      obtain ⟨h3, h4⟩ := trRun_flags sem a b ha' hne' es (fun e he => hp e (by simp [he])) (i + 1) s1
        (by rw [h1]; exact ha) (by rw [h1]; exact hne)
      simp only [reFlag, andThen_ok, h3]
      cases e2 : trRun sem (i + 1) s1 es with
      | error er => exact ⟨rfl, by intro s' os h; cases h⟩
      | ok q =>
        refine ⟨rfl, ?_⟩
        intro s' os h
        cases h
        obtain ⟨h5, h6⟩ := h4 q.1 q.2 e2
        exact ⟨by rw [h5, h1], by rw [h6, h2]⟩

theorem noSel_plain {es : List (Entry E)} (h : NoSel es) : SelPlain es := fun e he env l hh => absurd hh (h e he env l)

theorem selPlain_append {a b : List (Entry E)} (h1 : SelPlain a) (h2 : SelPlain b) : SelPlain (a ++ b) := by
  intro e he
  rcases List.mem_append.1 he with he | he
  · exact h1 e he
  · exact h2 e he

theorem selPlain_cond {a : List (Entry E)} (h1 : SelPlain a) : SelPlain (.cond :: a) := by
  intro e he env l hh
  rcases List.mem_cons.1 he with he | he
  · rw [he] at hh; cases hh
  · exact h1 e he env l hh

mutual
theorem block_plain (sem : PPSem E) (b : Block) (hb : b.Ok) : ∀ env, SelPlain (b.trace sem env) := by
  intro env
  match b, hb with
  | .nil, _ => intro e he; simp [Block.trace] at he
  | .leaf l rest, hb =>
    intro e he env' l' hh
    simp only [Block.trace, List.mem_cons] at he
    rcases he with he | he
    · rw [he] at hh; cases hh; exact hb.1
    · exact block_plain sem rest hb.2 _ e he env' l' hh
  | .cond c body chain rest, hb =>
    simp only [Block.trace]
    apply selPlain_cond
    split
    · exact selPlain_append (block_plain sem body hb.1 _)
        (selPlain_append (noSel_plain (chain_noSel chain)) (block_plain sem rest hb.2.2 _))
    · exact selPlain_append (noSel_plain (block_noSel body))
        (selPlain_append (chain_plain sem chain hb.2.1 _) (block_plain sem rest hb.2.2 _))
theorem chain_plain (sem : PPSem E) (c : Chain) (hc : c.Ok) : ∀ env, SelPlain (c.trace sem env) := by
  intro env
  match c, hc with
  | .endif, _ => exact selPlain_cond (by intro e he; simp at he)
  | .els body, hc =>
    exact selPlain_cond (selPlain_append (block_plain sem body hc _) (selPlain_cond (by intro e he; simp at he)))
  | .elif c body tail, hc =>
    simp only [Chain.trace]
    apply selPlain_cond
    split
    · exact selPlain_append (block_plain sem body hc.1 _) (noSel_plain (chain_noSel tail))
    · exact selPlain_append (noSel_plain (block_noSel body)) (chain_plain sem tail hc.2 _)
end

theorem flags_flags (s : PPState E) (a b c d : List Bool) : (s.flags a b).flags c d = s.flags c d := rfl

mutual
/-- The machine on a block in an active state is the machine on its entries. -/
theorem block_tr (sem : PPSem E) (b : Block) (hb : b.Ok) {i : Nat} {s : PPState E}
    (ha : s.ifTrue.all id = true) (hne : s.ifTrue ≠ []) :
    ppRun sem i s b.lines = trRun sem i s (b.trace sem s.env) := by
  match b, hb with
  | .nil, _ => rfl
  | .leaf l rest, hb =>
    simp only [Block.lines, ppRun, Block.trace, trRun, trStep]
    cases e1 : ppStep sem i s l with
    | error er => rfl
    | ok p =>
      obtain ⟨s1, o⟩ := p
      obtain ⟨h1, h2, h3, _⟩ := ppStep_active hb.1 ha e1
      simp only [andThen_ok]
      rw [block_tr sem rest hb.2 (by rw [h2]; exact ha) (by rw [h2]; exact hne), h1]
      rfl
  | .cond c body chain rest, hb =>
    by_cases hc : sem.cond s.env c = true
    · have h0 : ppStep sem i s (.dif c) =
          .ok (s.flags (true :: s.ifTrue) (true :: s.ifHit), some .blank) := by
        simp only [ppStep, ha, if_true, hc, PPState.flags]
      simp only [Block.lines, ppRun, h0, ppRun_append, Block.trace, hc, if_true, trRun, trStep, andThen_ok, trRun_append]
      rw [block_tr sem body hb.1 (by simpa [PPState.flags] using ha) (by simp [PPState.flags])]
      have e0 : (s.flags (true :: s.ifTrue) (true :: s.ifHit)).env = s.env := rfl
      have hf := trRun_flags sem (true :: s.ifTrue) (true :: s.ifHit) (by simpa using ha) (by simp)
        (body.trace sem s.env) (block_plain sem body hb.1 _) (i + 1) s ha hne
      rw [e0, hf.1]
      cases e1 : trRun sem (i + 1) s (body.trace sem s.env) with
      | error er => rfl
      | ok p =>
        obtain ⟨s1, o1⟩ := p
        obtain ⟨g1, g2⟩ := hf.2 s1 o1 e1
        have e2 := block_tr sem body hb.1 (i := i + 1) (s := s) ha hne
        rw [e1] at e2
        have henv := (block_live body hb.1 ha e2).1
        have h5 := chain_skip sem chain hb.2.1 (i := i + 1 + body.lines.length)
          (s := s1.flags (true :: s.ifTrue) (true :: s.ifHit)) (x := true) (h := true) (ts := s.ifTrue) (hs := s.ifHit)
          rfl rfl (.inl rfl)
        have h6 : ({ s1.flags (true :: s.ifTrue) (true :: s.ifHit) with ifTrue := s.ifTrue, ifHit := s.ifHit } : PPState E) = s1 := by
          simp [PPState.flags, ← g1, ← g2]
        rw [h6] at h5
        have h7 := trRun_skips sem (chain.skips E) (chain_noSel chain) (i + 1 + body.lines.length) s1
        have h8 := block_tr sem rest hb.2.2 (i := i + 1 + body.lines.length + chain.lines.length) (s := s1)
          (by rw [g1]; exact ha) (by rw [g1]; exact hne)
        simp only [reFlag, andThen_ok, block_trace_length, chain_skips_length, h5, h7, h8]
        rw [henv]
        cases trRun sem (i + 1 + body.lines.length + chain.lines.length) s1 (rest.trace sem (body.run sem s.env).1) <;> rfl
    · have hc' : sem.cond s.env c = false := by simpa using hc
      have h0 : ppStep sem i s (.dif c) =
          .ok (s.flags (false :: s.ifTrue) (false :: s.ifHit), some .blank) := by
        simp only [ppStep, ha, if_true, hc', PPState.flags]
      have h1 := block_skip sem body hb.1 (i := i + 1) (s := s.flags (false :: s.ifTrue) (false :: s.ifHit)) rfl
      have h2 := trRun_skips sem (body.skips E) (block_noSel body) (i + 1) s
      have h3 := chain_tr sem chain hb.2.1 (i := i + 1 + body.lines.length)
        (s := s.flags (false :: s.ifTrue) (false :: s.ifHit)) (x := false) (ts := s.ifTrue) (hs := s.ifHit) rfl rfl ha hne
      have e0 : (s.flags (false :: s.ifTrue) (false :: s.ifHit)).flags s.ifTrue s.ifHit = s := rfl
      have e0' : (s.flags (false :: s.ifTrue) (false :: s.ifHit)).env = s.env := rfl
      rw [e0, e0'] at h3
      simp only [Block.lines, ppRun, h0, ppRun_append, Block.trace, hc', trRun, trStep, andThen_ok, trRun_append,
        h1, h2, h3, Bool.false_eq_true, if_false, block_skips_length, chain_trace_length]
      cases e1 : trRun sem (i + 1 + body.lines.length) s (chain.trace sem s.env) with
      | error er => rfl
      | ok p =>
        obtain ⟨s1, o1⟩ := p
        rw [e1] at h3
        obtain ⟨g0, g1, g2, _⟩ := chain_live chain hb.2.1 (x := false) (ts := s.ifTrue) (hs := s.ifHit) rfl rfl ha h3
        have h8 := block_tr sem rest hb.2.2 (i := i + 1 + body.lines.length + chain.lines.length) (s := s1)
          (by rw [g1]; exact ha) (by rw [g1]; exact hne)
        simp only [andThen_ok, h8]
        rw [g0]
        rfl
/-- The rest of a conditional none of whose branches was taken so far. -/
theorem chain_tr (sem : PPSem E) (c : Chain) (hc : c.Ok) {i : Nat} {s : PPState E}
    {x : Bool} {ts hs : List Bool} (ht : s.ifTrue = x :: ts) (hh : s.ifHit = false :: hs)
    (ha : ts.all id = true) (hne : ts ≠ []) :
    ppRun sem i s c.lines = trRun sem i (s.flags ts hs) (c.trace sem s.env) := by
  match c, hc with
  | .endif, _ => simp [Chain.lines, ppRun, ppStep, ht, hh, Chain.trace, trRun, trStep, andThen, PPState.flags]
  | .els body, hc =>
    have h0 : ppStep sem i s .delse = .ok (s.flags (true :: ts) (true :: hs), some .blank) := by
      simp only [ppStep, ht, hh, ha, PPState.flags]
      rfl
    have h1 := block_tr sem body hc (i := i + 1) (s := s.flags (true :: ts) (true :: hs))
      (by simpa [PPState.flags] using ha) (by simp [PPState.flags])
    have hf := trRun_flags sem (true :: ts) (true :: hs) (by simpa using ha) (by simp)
        (body.trace sem s.env) (block_plain sem body hc _) (i + 1) (s.flags ts hs) ha hne
    have e0' : (s.flags (true :: ts) (true :: hs)).env = s.env := rfl
    rw [e0'] at h1
    rw [flags_flags] at hf
    rw [hf.1] at h1
    simp only [Chain.lines, ppRun, h0, ppRun_append, Chain.trace, trRun, trStep, andThen_ok, trRun_append, h1]
    cases e1 : trRun sem (i + 1) (s.flags ts hs) (body.trace sem s.env) with
    | error er => rfl
    | ok p =>
      obtain ⟨s1, o1⟩ := p
      obtain ⟨g1, g2⟩ := hf.2 s1 o1 e1
      simp only [reFlag, andThen_ok, ppStep, PPState.flags]
      simp only [PPState.flags] at g1 g2
      simp [← g1, ← g2]
  | .elif c body tail, hc =>
    by_cases hcc : sem.cond s.env c = true
    · have h0 : ppStep sem i s (.delif c) = .ok (s.flags (true :: ts) (true :: hs), some .blank) := by
        simp only [ppStep, ht, hh, ha, PPState.flags, hcc]
        rfl
      have h1 := block_tr sem body hc.1 (i := i + 1) (s := s.flags (true :: ts) (true :: hs))
        (by simpa [PPState.flags] using ha) (by simp [PPState.flags])
      have hf := trRun_flags sem (true :: ts) (true :: hs) (by simpa using ha) (by simp)
        (body.trace sem s.env) (block_plain sem body hc.1 _) (i + 1) (s.flags ts hs) ha hne
      have e0' : (s.flags (true :: ts) (true :: hs)).env = s.env := rfl
      rw [e0'] at h1
      rw [flags_flags] at hf
      rw [hf.1] at h1
      simp only [Chain.lines, ppRun, h0, ppRun_append, Chain.trace, hcc, if_true, trRun, trStep, andThen_ok, trRun_append, h1]
      cases e1 : trRun sem (i + 1) (s.flags ts hs) (body.trace sem s.env) with
      | error er => rfl
      | ok p =>
        obtain ⟨s1, o1⟩ := p
        obtain ⟨g1, g2⟩ := hf.2 s1 o1 e1
        have h5 := chain_skip sem tail hc.2 (i := i + 1 + body.lines.length)
          (s := s1.flags (true :: ts) (true :: hs)) (x := true) (h := true) (ts := ts) (hs := hs)
          rfl rfl (.inl rfl)
        have h6 : ({ s1.flags (true :: ts) (true :: hs) with ifTrue := ts, ifHit := hs } : PPState E) = s1 := by
          simp only [PPState.flags] at g1 g2
          simp [PPState.flags, ← g1, ← g2]
        rw [h6] at h5
        have h7 := trRun_skips sem (tail.skips E) (chain_noSel tail) (i + 1 + body.lines.length) s1
        simp only [reFlag, andThen_ok, block_trace_length, h5, h7]
    · have hc' : sem.cond s.env c = false := by simpa using hcc
      have h0 : ppStep sem i s (.delif c) = .ok (s.flags (false :: ts) (false :: hs), some .blank) := by
        simp only [ppStep, ht, hh, ha, PPState.flags, hc']
        rfl
      have h1 := block_skip sem body hc.1 (i := i + 1) (s := s.flags (false :: ts) (false :: hs)) rfl
      have h2 := trRun_skips sem (body.skips E) (block_noSel body) (i + 1) (s.flags ts hs)
      have h3 := chain_tr sem tail hc.2 (i := i + 1 + body.lines.length)
        (s := s.flags (false :: ts) (false :: hs)) (x := false) (ts := ts) (hs := hs) rfl rfl ha hne
      have e0' : (s.flags (false :: ts) (false :: hs)).env = s.env := rfl
      rw [flags_flags, e0'] at h3
      simp only [Chain.lines, ppRun, h0, ppRun_append, Chain.trace, hc', trRun, trStep, andThen_ok, trRun_append,
        h1, h2, h3, Bool.false_eq_true, if_false, block_skips_length]
      rfl
end

end Pyclib
