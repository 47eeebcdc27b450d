import Verif.Proof.Preproc
import Verif.Proof.Text
import Mathlib.Tactic.Convert
import Mathlib.Data.List.Forall2
/-!
# C16–C22: line joining, conditional compilation, line numbers, `#pragma pack`
-/
namespace Pyclib
open Spec

variable {E : Type}

/-- A small macro semantics for concrete examples: the table is the list of defined names, a condition
is the name of a macro, nothing is expanded. -/
def demoSem : PPSem (List Str) where
  expand := fun _ s => s
  cond := fun env r => decide (strip r ∈ env)
  define := fun env n _ => n :: env
  undef := fun env n => env.filter (· ≠ n)

/-! ## C16: line joining -/

/-- Specification of line joining: the text is a list of pieces separated by backslash-newline, none
of which contains that pair (also not across a piece boundary). -/
def Spec.NoCont : Str → Prop
  | '\\' :: '\n' :: _ => False
  | _ :: s => Spec.NoCont s
  | [] => True

theorem joinLines_noCont (s r : Str) (h : Spec.NoCont s) (hr : ∀ r', ¬ (s.getLast? = some '\\' ∧ r = '\n' :: r')) :
    joinLines (s ++ r) = s ++ joinLines r := by
  induction s with
  | nil => rfl
  | cons c s ih =>
    have hstep : joinLines (c :: (s ++ r)) = c :: joinLines (s ++ r) := by
      rw [joinLines]
      intro s' hc hs
      subst hc
      match s, hs with
      | [], hs => exact hr s' ⟨rfl, hs⟩
      | d :: s, hs => simp at hs; obtain ⟨rfl, _⟩ := hs; exact h
    rw [List.cons_append, hstep, ih, List.cons_append]
    · match c, s, h with
      | c, [], h => trivial
      | c, d :: s, h =>
        by_cases hcd : c = '\\' ∧ d = '\n'
        · obtain ⟨rfl, rfl⟩ := hcd; exact h.elim
        · rw [Spec.NoCont] at h
          · exact h
          · intro s' h1 h2; simp at h2; exact hcd ⟨h1, h2.1⟩
    · intro r' hx
      apply hr r'
      refine ⟨?_, hx.2⟩
      cases s with
      | nil => simp at hx
      | cons d s => simpa [List.getLast?_cons] using hx.1

/-- Pieces glued with backslash-newline. -/
def Spec.glue : List Str → Str
  | [] => []
  | [s] => s
  | s :: ss => s ++ '\\' :: '\n' :: Spec.glue ss

/-- **C16.** Joining deletes exactly the backslash-newline pairs: for every list of pieces, none of
which contains such a pair, gluing them with backslash-newline and joining gives the
concatenation. -/
theorem C16_join (ps : List Str) (h : ∀ p ∈ ps, Spec.NoCont p) :
    joinLines (Spec.glue ps) = ps.flatten := by
  induction ps with
  | nil => rfl
  | cons p ps ih =>
    have hp := h p (by simp)
    cases ps with
    | nil =>
      have := joinLines_noCont p [] hp (by simp)
      simpa [Spec.glue, joinLines] using this
    | cons q ps =>
      have h1 : joinLines ('\\' :: '\n' :: Spec.glue (q :: ps)) = (q :: ps).flatten := by
        rw [joinLines]; exact ih (fun x hx => h x (by simp at hx ⊢; right; exact hx))
      show joinLines (p ++ '\\' :: '\n' :: Spec.glue (q :: ps)) = _
      rw [joinLines_noCont p _ hp (by simp), h1]
      simp

/-- **C16.** Every text is such a gluing, so `C16_join` describes the joining of every text. -/
theorem C16_every_text (s : Str) : ∃ ps, (∀ p ∈ ps, Spec.NoCont p) ∧ Spec.glue ps = s := by
  induction s using joinLines.induct with
  | case1 s ih =>
    obtain ⟨ps, h1, h2⟩ := ih
    match ps, h1, h2 with
    | [], _, h2 => exact ⟨[[], []], by simp [Spec.NoCont], by simp [Spec.glue] at h2 ⊢; exact h2⟩
    | q :: ps, h1, h2 =>
      refine ⟨[] :: q :: ps, ?_, by simp [Spec.glue, h2]⟩
      intro p hp
      rcases List.mem_cons.1 hp with hp | hp
      · subst hp; trivial
      · exact h1 p hp
  | case2 c s hne ih =>
    obtain ⟨ps, h1, h2⟩ := ih
    match ps, h1, h2 with
    | [], _, h2 =>
      simp [Spec.glue] at h2; subst h2
      exact ⟨[[c]], by simp [Spec.NoCont], rfl⟩
    | q :: ps, h1, h2 =>
      refine ⟨(c :: q) :: ps, ?_, ?_⟩
      · intro p hp
        rcases List.mem_cons.1 hp with hp | hp
        · subst hp
          have hq := h1 q (by simp)
          rw [Spec.NoCont]
          · exact hq
          · intro s' hc hs
            subst hc
            rw [hs] at h2
            cases ps with
            | nil => exact hne _ rfl (by rw [← h2]; rfl)
            | cons r ps => exact hne _ rfl (by rw [← h2]; rfl)
        · exact h1 p (by simp [hp])
      · cases ps with
        | nil => simpa [Spec.glue] using h2
        | cons r ps => simp [Spec.glue] at h2 ⊢; exact h2
  | case3 => exact ⟨[], by simp, rfl⟩

/-- Nothing is left to join... unless deleting a pair creates a new one, as in C translation phase 2. -/
example : joinLines c%"#define A 1 \\\n + 2\nint x;" = c%"#define A 1  + 2\nint x;" := by decide

/-! ## C17: conditional compilation -/

/-- **C17.** For every well nested arrangement of conditionals of any depth, every outcome of the
conditions and every macro semantics: if preprocessing ends without an exception, the text kept and
the macro table are exactly those of the branches C selects, and the flag stacks are restored. -/
theorem C17_selects (sem : PPSem E) (env : E) (b : Block) (hb : b.Ok) {s' : PPState E} {os : List Out}
    (h : ppRun sem 0 (PPState.init env) b.lines = .ok (s', os)) :
    s'.env = (b.run sem env).1 ∧ codes os = b.text sem env ∧ s'.ifTrue = [true] ∧ s'.ifHit = [] := by
  obtain ⟨h1, h2, h3, h4⟩ := block_live b hb (i := 0) (s := PPState.init env) (by simp [PPState.init]) h
  exact ⟨h1, h4, h2, h3⟩

/-- The same for a whole text. -/
theorem C17_text (sem : PPSem E) (env : E) (b : Block) (hb : b.Ok) (text out : Str) {s' : PPState E}
    (ht : (splitOnC '\n' (joinLines text)).map classify = b.lines)
    (h : preprocess sem env text = .ok (s', out)) :
    s'.env = (b.run sem env).1 ∧
      ∃ os, out = joinC '\n' (os.map Out.text) ∧ codes os = b.text sem env := by
  unfold preprocess at h
  rw [ht] at h
  split at h
  · cases h
  · rename_i s1 os h1
    cases h
    obtain ⟨h2, h3, _⟩ := C17_selects sem env b hb h1
    exact ⟨h2, os, rfl, h3⟩

mutual
/-- No pragma in the block. -/
def Spec.Block.NoPragma : Block → Prop
  | .nil => True
  | .leaf l rest => (∀ t, l ≠ .pragma t) ∧ rest.NoPragma
  | .cond _ body chain rest => body.NoPragma ∧ chain.NoPragma ∧ rest.NoPragma
/-- No pragma in the chain. -/
def Spec.Chain.NoPragma : Chain → Prop
  | .endif => True
  | .els body => body.NoPragma
  | .elif _ body tail => body.NoPragma ∧ tail.NoPragma
end

mutual
theorem block_lines_mem (b : Block) (hb : b.Ok) (hn : b.NoPragma) :
    (∀ l ∈ b.lines, l ≠ .badName ∧ ∀ t, l ≠ .pragma t) := by
  match b, hb, hn with
  | .nil, _, _ => simp [Block.lines]
  | .leaf l rest, hb, hn =>
    intro x hx
    rcases List.mem_cons.1 hx with hx | hx
    · subst hx; exact ⟨by rintro rfl; exact hb.1, hn.1⟩
    · exact block_lines_mem rest hb.2 hn.2 x hx
  | .cond c body chain rest, hb, hn =>
    intro x hx
    simp only [Block.lines, List.mem_cons, List.mem_append] at hx
    rcases hx with hx | hx | hx | hx
    · subst hx; simp
    · exact block_lines_mem body hb.1 hn.1 x hx
    · exact chain_lines_mem chain hb.2.1 hn.2.1 x hx
    · exact block_lines_mem rest hb.2.2 hn.2.2 x hx
theorem chain_lines_mem (c : Chain) (hc : c.Ok) (hn : c.NoPragma) :
    (∀ l ∈ c.lines, l ≠ .badName ∧ ∀ t, l ≠ .pragma t) := by
  match c, hc, hn with
  | .endif, _, _ => simp [Chain.lines]
  | .els body, hc, hn =>
    intro x hx
    simp only [Chain.lines, List.mem_cons, List.mem_append, List.not_mem_nil, or_false] at hx
    rcases hx with hx | hx | hx
    · subst hx; simp
    · exact block_lines_mem body hc hn x hx
    · subst hx; simp
  | .elif c body tail, hc, hn =>
    intro x hx
    simp only [Chain.lines, List.mem_cons, List.mem_append] at hx
    rcases hx with hx | hx | hx
    · subst hx; simp
    · exact block_lines_mem body hc.1 hn.1 x hx
    · exact chain_lines_mem tail hc.2 hn.2 x hx
end

/-- In every prefix there are at least as many `#if`s as `#endif`s, and one more before a closer. -/
def Spec.Nested : Nat → List Line → Prop
  | _, [] => True
  | n, l :: ls => (needsIf l = true → 0 < n) ∧
      Spec.Nested (if isOpen l then n + 1 else if isEnd l then n - 1 else n) ls

theorem nested_append {a b : List Line} : ∀ {n : Nat},
    Spec.Nested n (a ++ b) ↔ Spec.Nested n a ∧ Spec.Nested (n + a.countP isOpen - a.countP isEnd) b := by
  induction a with
  | nil => intro n; simp [Spec.Nested]
  | cons l a ih =>
    intro n
    simp only [List.cons_append, Spec.Nested, ih, and_assoc, List.countP_cons]
    constructor
    · rintro ⟨h1, h2, h3⟩
      refine ⟨h1, h2, ?_⟩
      convert h3 using 1
      cases l <;> simp [isOpen, isEnd, needsIf] at * <;> omega
    · rintro ⟨h1, h2, h3⟩
      refine ⟨h1, h2, ?_⟩
      convert h3 using 1
      cases l <;> simp [isOpen, isEnd, needsIf] at * <;> omega

mutual
theorem block_nested (b : Block) (hb : b.Ok) : ∀ n,
    Spec.Nested n b.lines ∧ b.lines.countP isOpen = b.lines.countP isEnd := by
  intro n
  match b, hb with
  | .nil, _ => simp [Block.lines, Spec.Nested]
  | .leaf l rest, hb =>
    obtain ⟨h1, h2⟩ := block_nested rest hb.2 n
    have hl := hb.1
    simp only [Block.lines, Spec.Nested, List.countP_cons, h2]
    cases l <;> first | exact hl.elim | simp [isOpen, isEnd, needsIf, h1]
  | .cond c body chain rest, hb =>
    obtain ⟨h1, h2⟩ := block_nested body hb.1 (n + 1)
    obtain ⟨h3, h4⟩ := chain_nested chain hb.2.1 n
    obtain ⟨h5, h6⟩ := block_nested rest hb.2.2 n
    simp only [Block.lines, Spec.Nested, nested_append, List.countP_cons, List.countP_append, h2, h6]
    refine ⟨⟨by simp [needsIf], by simpa [isOpen] using h1, ?_, ?_⟩, ?_⟩
    · simpa [isOpen] using h3
    · have : (if isOpen (Line.dif c) = true then n + 1 else if isEnd (Line.dif c) = true then n - 1 else n) = n + 1 := by
        simp [isOpen]
      rw [this, show n + 1 + List.countP isEnd body.lines - List.countP isEnd body.lines +
        List.countP isOpen chain.lines - List.countP isEnd chain.lines = n by omega]
      exact h5
    · simp [isOpen, isEnd]; omega
theorem chain_nested (c : Chain) (hc : c.Ok) : ∀ n,
    Spec.Nested (n + 1) c.lines ∧ c.lines.countP isOpen + 1 = c.lines.countP isEnd := by
  intro n
  match c, hc with
  | .endif, _ => simp [Chain.lines, Spec.Nested, needsIf, isOpen, isEnd]
  | .els body, hc =>
    obtain ⟨h1, h2⟩ := block_nested body hc (n + 1)
    simp only [Chain.lines, Spec.Nested, nested_append, List.countP_cons, List.countP_append, h2]
    simp [Spec.Nested, isOpen, isEnd, needsIf, h1]
  | .elif c body tail, hc =>
    obtain ⟨h1, h2⟩ := block_nested body hc.1 (n + 1)
    obtain ⟨h3, h4⟩ := chain_nested tail hc.2 n
    simp only [Chain.lines, Spec.Nested, nested_append, List.countP_cons, List.countP_append, h2]
    refine ⟨⟨by simp, by simpa [isOpen, isEnd] using h1, by simpa [isOpen, isEnd] using h3⟩, ?_⟩
    simp [isOpen, isEnd]; omega
end

/-- **C17.** Without pragmas preprocessing of a well nested arrangement never raises (with pragmas it
can: `C22_pop_underflow`). -/
theorem C17_total (sem : PPSem E) (env : E) (b : Block) (hb : b.Ok) (hn : b.NoPragma) :
    ∃ s' os, ppRun sem 0 (PPState.init env) b.lines = .ok (s', os) := by
  match h : ppRun sem 0 (PPState.init env) b.lines with
  | .ok (s', os) => exact ⟨s', os, rfl⟩
  | .error e =>
    exfalso
    obtain ⟨a, l, c, s1, o1, h1, h2, h3⟩ := ppRun_error h
    have hm := block_lines_mem b hb hn l (by simp [h1])
    obtain ⟨w1, w2⟩ := ppRun_depth (by simp [PPState.init]) h2
    rcases ppStep_error w1 h3 with ⟨h4, _⟩ | ⟨t, h4⟩ | ⟨h4, h5, _⟩
    · exact hm.1 h4
    · exact hm.2 t h4
    · have hnest := (block_nested b hb 0).1
      rw [h1, nested_append] at hnest
      have := hnest.2.1 h4
      simp [h5, PPState.init] at w2
      omega

/-- The claim that nothing in a skipped branch has any effect fails for a malformed `#define`:
the name is matched before the region is looked at, and `AttributeError` escapes. -/
theorem C17_counterexample_bad_define :
    preprocess demoSem [] c%"#if A\n#define 1\n#endif\nint x;" = .error .attributeError := by
  rfl

/-- Non-vacuity: nested conditionals with a definition inside a selected branch. -/
def demoBlock : Block :=
  .leaf (.define c%"A" []) <|
  .cond c%"B" (.leaf (.code c%"no") .nil)
    (.elif c%"A" (.cond c%"C" (.leaf (.code c%"no") .nil)
        (.els (.leaf (.define c%"D" []) (.leaf (.code c%"yes") .nil))) .nil)
      (.els (.leaf (.code c%"no") .nil))) <|
  .cond c%"D" (.leaf (.code c%"yes2") .nil) .endif .nil

example : demoBlock.Ok ∧ demoBlock.NoPragma ∧ demoBlock.text demoSem [] = [c%"yes", c%"yes2"] ∧
    (demoBlock.run demoSem []).1 = [c%"D", c%"A"] := by
  refine ⟨?_, ?_, by rfl, by rfl⟩ <;> simp [demoBlock, Block.Ok, Chain.Ok, Block.NoPragma, Chain.NoPragma, Plain]

example : (splitOnC '\n' (joinLines c%"#define A\n#if B\nno\n#elif A\n#if C\nno\n#else\n#define D\nyes\n#endif\n#else\nno\n#endif\n#if D\nyes2\n#endif")).map classify
    = (Block.leaf (.define c%"A" []) <|
  .cond c%" B" (.leaf (.code c%"no") .nil)
    (.elif c%" A" (.cond c%" C" (.leaf (.code c%"no") .nil)
        (.els (.leaf (.define c%"D" []) (.leaf (.code c%"yes") .nil))) .nil)
      (.els (.leaf (.code c%"no") .nil))) <|
  .cond c%" D" (.leaf (.code c%"yes2") .nil) .endif .nil).lines := by rfl

/-! ## C18: skipped regions -/

/-- **C18.** For every line sequence, however badly nested: macro table and text kept are exactly those
of the line-by-line semantics in which an ordinary line acts only when every open conditional is in a
true branch. -/
theorem C18_refines (sem : PPSem E) (env : E) (ls : List Line) {s' : PPState E} {os : List Out}
    (h : ppRun sem 0 (PPState.init env) ls = .ok (s', os)) :
    s'.env = (Raw.run sem ⟨env, []⟩ ls).1.env ∧ codes os = (Raw.run sem ⟨env, []⟩ ls).2 := by
  obtain ⟨h1, h2, _⟩ := ppRun_sim (Sim.init env) h
  exact ⟨h1.env, h2⟩

/-- **C18.** One line at a time: after any prefix, if some open conditional is false, an ordinary line
changes neither macro table nor packing nor flags, and emits no code. -/
theorem C18_dead (sem : PPSem E) (env : E) (ls : List Line) (l : Line) {s1 s2 : PPState E}
    {os : List Out} {o : Option Out} (h : ppRun sem 0 (PPState.init env) ls = .ok (s1, os))
    (hl : Plain l) (hd : (Raw.run sem ⟨env, []⟩ ls).1.Active = false)
    (h2 : ppStep sem ls.length s1 l = .ok (s2, o)) : s2 = s1 ∧ codes o.toList = [] := by
  obtain ⟨h1, _, _⟩ := ppRun_sim (Sim.init env) h
  obtain ⟨ts, hts⟩ := h1.rel.head
  have hd' : (Raw.run sem ⟨env, []⟩ ls).1.frames.all Frame.cur = false := hd
  rw [hd'] at hts
  obtain ⟨o', h3, h4⟩ := ppStep_dead (sem := sem) (i := ls.length) hl hts
  have := h3.symm.trans h2
  cases this
  exact ⟨rfl, h4⟩

example : (Raw.run demoSem ⟨[], []⟩ [.dif c%"A", .delse, .delse, .dif c%"A"]).1.Active = false ∧
    ∃ s os, ppRun demoSem 0 (PPState.init []) [.dif c%"A", .delse, .delse, .dif c%"A"] = .ok (s, os) :=
  ⟨rfl, _, _, rfl⟩

/-! ## C19: unbalanced conditionals -/

/-- **C19.** If some `#endif`/`#elif`/`#else` has no open `#if` before it, preprocessing raises. -/
theorem C19_unmatched_raises (sem : PPSem E) (env : E) (ls : List Line) (h : Unmatched ls) :
    ∃ e, ppRun sem 0 (PPState.init env) ls = .error e := by
  obtain ⟨a, c, b, rfl, hc, hab⟩ := h
  match hr : ppRun sem 0 (PPState.init env) (a ++ c :: b) with
  | .error e => exact ⟨e, rfl⟩
  | .ok (s', os) =>
    exfalso
    obtain ⟨s1, o1, o2, h1, h2, _⟩ := ppRun_append_ok hr
    obtain ⟨w1, w2⟩ := ppRun_depth (by simp [PPState.init]) h1
    have hh : s1.ifHit = [] := by
      have : s1.ifHit.length = 0 := by simp [PPState.init] at w2; omega
      exact List.length_eq_zero_iff.1 this
    obtain ⟨s2, o, os', h3, _, _⟩ := ppRun_cons_ok h2
    rw [ppStep_needsIf hc hh] at h3
    cases h3

/-- **C19.** The only exceptions of preprocessing: IndexError for an unmatched directive,
AttributeError for a `#define`/`#undef` without a name, or something raised by a pragma. -/
theorem C19_only_unmatched (sem : PPSem E) (env : E) (ls : List Line) {e : PyErr}
    (h : ppRun sem 0 (PPState.init env) ls = .error e) :
    (Unmatched ls ∧ e = .indexError) ∨ (.badName ∈ ls ∧ e = .attributeError) ∨ ∃ t, .pragma t ∈ ls := by
  obtain ⟨a, l, c, s1, o1, h1, h2, h3⟩ := ppRun_error h
  obtain ⟨w1, w2⟩ := ppRun_depth (by simp [PPState.init]) h2
  rcases ppStep_error w1 h3 with ⟨h4, h6⟩ | ⟨t, h4⟩ | ⟨h4, h5, h6⟩
  · exact .inr (.inl ⟨by simp [h1, h4], h6⟩)
  · exact .inr (.inr ⟨t, by simp [h1, h4]⟩)
  · left
    refine ⟨⟨a, l, c, h1, h4, ?_⟩, h6⟩
    simp [PPState.init, h5] at w2
    omega

/-- **C19.** For files without pragmas and with well formed definitions: IndexError exactly when some
closing directive has no open `#if`; a missing `#endif` is tolerated. -/
theorem C19_exact (sem : PPSem E) (env : E) (ls : List Line)
    (hp : ∀ t, .pragma t ∉ ls) (hb : .badName ∉ ls) :
    ppRun sem 0 (PPState.init env) ls = .error .indexError ↔ Unmatched ls := by
  constructor
  · intro h
    rcases C19_only_unmatched sem env ls h with ⟨h1, _⟩ | ⟨h1, _⟩ | ⟨t, h1⟩
    · exact h1
    · exact (hb h1).elim
    · exact (hp t h1).elim
  · intro h
    obtain ⟨e, he⟩ := C19_unmatched_raises sem env ls h
    rcases C19_only_unmatched sem env ls he with ⟨_, h1⟩ | ⟨h1, _⟩ | ⟨t, h1⟩
    · rw [he, h1]
    · exact (hb h1).elim
    · exact (hp t h1).elim

/-- With pragmas IndexError has a second source: `#pragma pack(pop)` with nothing pushed. -/
theorem C19_counterexample_pop :
    ppRun demoSem 0 (PPState.init []) [.pragma c%" pack(pop)"] = .error .indexError ∧
    ¬ Unmatched [.pragma c%" pack(pop)"] := by
  refine ⟨rfl, ?_⟩
  rintro ⟨a, c, b, h1, h2, _⟩
  match a, h1 with
  | [], h1 => simp at h1; rw [← h1.1] at h2; simp [needsIf] at h2
  | x :: [], h1 => simp at h1
  | x :: y :: a, h1 => simp at h1

example : Unmatched [.dif c%"A", .dendif, .code c%"x", .delse] :=
  ⟨[.dif c%"A", .dendif, .code c%"x"], .delse, [], rfl, rfl, rfl⟩

/-! ## C20: line numbers -/

/-- **C20 (exact).** The number of lines produced plus the number of dropped lines (definitions and
pragmas in skipped regions, selected pragmas other than `pack`) is the number of input lines; and
this holds for every prefix, so what input line `a.length` produces comes after exactly
`a.length - dropped` output lines. -/
theorem C20_line_numbers (sem : PPSem E) (env : E) (a b : List Line) {s' : PPState E} {os : List Out}
    (h : ppRun sem 0 (PPState.init env) (a ++ b) = .ok (s', os)) :
    ∃ oa ob, os = oa ++ ob ∧ oa.length + Raw.dropped sem ⟨env, []⟩ a = a.length ∧
      codes oa = (Raw.run sem ⟨env, []⟩ a).2 := by
  obtain ⟨s1, o1, o2, h1, h2, rfl⟩ := ppRun_append_ok h
  obtain ⟨_, h3, h4⟩ := ppRun_sim (Sim.init env) h1
  exact ⟨o1, o2, rfl, h4, h3⟩

/-- **C20 (partial).** If no line is dropped there is one output line per input line. Missing from the
full claim: files where a line is dropped, for which it is false (`C20_counterexample`). -/
theorem C20_preserved_partial (sem : PPSem E) (env : E) (ls : List Line) {s' : PPState E}
    {os : List Out} (h : ppRun sem 0 (PPState.init env) ls = .ok (s', os))
    (hd : Raw.dropped sem ⟨env, []⟩ ls = 0) : os.length = ls.length := by
  obtain ⟨_, _, h4⟩ := ppRun_sim (Sim.init env) h
  omega

/-- The claim fails: `#pragma once` vanishes without leaving an empty line, and so does a definition
in a skipped region; line numbers of everything after are too small. -/
theorem C20_counterexample :
    (preprocess demoSem [] c%"#pragma once\nint x;").map (·.2) = .ok c%"int x;" ∧
    (preprocess demoSem [] c%"#if A\n#define B\n#endif\nint x;").map (·.2) = .ok c%"\n\nint x;" := by
  exact ⟨rfl, rfl⟩

/-- ... and a struct can then be given the packing of a pragma two lines further down: here the struct
stands on (0-based) line 1 of the output, before the pragma that is recorded on line 3. -/
theorem C20_counterexample_shift :
    (preprocess demoSem [] c%"#pragma once\n#pragma once\n#pragma pack(4)\nstruct s;").map (·.1.packList)
      = .ok [(0, none), (2, some 4)] ∧
    (preprocess demoSem [] c%"#pragma once\n#pragma once\n#pragma pack(4)\nstruct s;").map (·.2)
      = .ok c%"\nstruct s;" ∧
    structPacking [(0, none), (2, some 4)] c%"\nstruct s;" 1 = some 4 ∧
    (preprocess demoSem [] c%"#pragma once\n#pragma once\n#pragma once\n#pragma pack(4)\nstruct s;").map
        (fun r => structPacking r.1.packList r.2 1) = .ok none := by
  exact ⟨rfl, rfl, rfl, rfl⟩

example : Raw.dropped demoSem ⟨[], []⟩ [.dif c%"A", .code c%"x", .dendif, .pragma c%" pack(1)"] = 0 ∧
    ∃ s os, ppRun demoSem 0 (PPState.init []) [.dif c%"A", .code c%"x", .dendif, .pragma c%" pack(1)"]
      = .ok (s, os) := ⟨rfl, _, _, rfl⟩

/-! ## C21: packing in force at a struct -/

/-- **C21 (exact).** `packing_at(n)` is the packing in force after input lines `0..n`. -/
theorem C21_packing_at (sem : PPSem E) (env : E) (a b : List Line) (n : Nat) {s1 s' : PPState E}
    {o1 os : List Out} (hn : a.length = n + 1)
    (h1 : ppRun sem 0 (PPState.init env) a = .ok (s1, o1))
    (h : ppRun sem 0 (PPState.init env) (a ++ b) = .ok (s', os)) :
    packingAt n s'.packList = s1.packing := by
  obtain ⟨s2, o2, o3, h2, h3, rfl⟩ := ppRun_append_ok h
  rw [h1] at h2; cases h2
  have hi := ppRun_packInv (PackInv.init env) h1
  obtain ⟨l, k, hl⟩ := hi.last
  obtain ⟨ext, he, hext⟩ := ppRun_packList h3
  rw [he, hl]
  refine packingAtFrom_app ?_ ?_
  · rw [← hl]; intro p hp; rcases hi.lt p hp with h | h <;> omega
  · intro p hp; have := hext p hp; omega

/-- Newlines before an offset that lies inside the last of some newline-free lines. -/
theorem linenoAt_join (pre : List Str) (l : Str) (post : List Str) (j : Nat)
    (hp : ∀ x ∈ pre, '\n' ∉ x) (hl : '\n' ∉ l) (hj : j ≤ l.length) :
    linenoAt (joinC '\n' (pre ++ l :: post)) ((pre.map (fun x => x.length + 1)).sum + j)
      = pre.length + 1 := by
  have key : ((joinC '\n' (pre ++ l :: post)).take ((pre.map (fun x => x.length + 1)).sum + j)).filter (· = '\n')
      = List.replicate pre.length '\n' := by
    induction pre with
    | nil =>
      simp only [List.nil_append, List.map_nil, List.sum_nil, Nat.zero_add, List.length_nil,
        List.replicate_zero]
      have : (joinC '\n' (l :: post)).take j = l.take j := by
        cases post with
        | nil => rfl
        | cons q post => simp [joinC, List.take_append_of_le_length hj]
      rw [this, List.filter_eq_nil_iff]
      intro c hc
      have := List.mem_of_mem_take hc
      simp; rintro rfl; exact hl this
    | cons p pre ih =>
      have h1 : joinC '\n' (p :: pre ++ l :: post) = p ++ '\n' :: joinC '\n' (pre ++ l :: post) := by
        cases pre <;> rfl
      have h2 : ((p :: pre).map (fun x => x.length + 1)).sum + j
          = p.length + (1 + ((pre.map (fun x => x.length + 1)).sum + j)) := by
        simp; omega
      have hpf : p.filter (· = '\n') = [] := by
        rw [List.filter_eq_nil_iff]; intro c hc; simp; rintro rfl; exact hp p (by simp) hc
      rw [h1, h2, List.take_length_add_append, List.filter_append, hpf, List.nil_append, Nat.add_comm 1,
        List.take_succ_cons, List.filter_cons]
      simp only [decide_true, if_true, List.length_cons, List.replicate_succ]
      rw [ih (fun x hx => hp x (by simp [hx]))]
  rw [linenoAt, key, List.length_replicate, Nat.add_comm]

/-- **C21 (partial).** Let `a` be the lines before the line `l` where a struct starts, and `nxt` the line
right after it.  If no line up to there is dropped, and neither `l` nor `nxt` is a pragma, then the
packing recorded for a struct that starts anywhere in the text of line `l` is the one set by the last
`#pragma pack` before it.  Missing from the full claim: dropped lines (C20) and a pragma on the very
next line, where it is false (`C21_counterexample`). -/
theorem C21_struct_partial (sem : PPSem E) (env : E) (a b : List Line) (l nxt : Line) (j : Nat)
    {s0 s' : PPState E} {o0 os : List Out}
    (h0 : ppRun sem 0 (PPState.init env) a = .ok (s0, o0))
    (h : ppRun sem 0 (PPState.init env) (a ++ l :: nxt :: b) = .ok (s', os))
    (hd : Raw.dropped sem ⟨env, []⟩ a = 0) (hl : ∀ t, l ≠ .pragma t) (hn : ∀ t, nxt ≠ .pragma t)
    (hol : ∀ s1 o, ppStep sem a.length s0 l = .ok (s1, o) → ∃ o', o = some o' ∧ j ≤ o'.text.length)
    (hnl : ∀ o ∈ os, '\n' ∉ o.text) :
    structPacking s'.packList (joinC '\n' (os.map Out.text))
      (((os.take a.length).map (fun o => o.text.length + 1)).sum + j) = s0.packing := by
  obtain ⟨s1, oa, ob, h1, h2, rfl⟩ := ppRun_append_ok h
  rw [h0] at h1; cases h1
  obtain ⟨s2, o2, os2, h3, h4, rfl⟩ := ppRun_cons_ok h2
  obtain ⟨s3, o3, os3, h5, h6, rfl⟩ := ppRun_cons_ok h4
  obtain ⟨_, _, hlen⟩ := ppRun_sim (Sim.init env) h0
  obtain ⟨o', rfl, hj⟩ := hol s2 o2 (by simpa using h3)
  have hlen' : o0.length = a.length := by omega
  have hpk2 : s2.packing = s0.packing := by
    rcases ppStep_pack h3 with ⟨_, h, _⟩ | ⟨⟨t, ht⟩, _⟩
    · exact h
    · exact (hl t ht).elim
  have hpk3 : s3.packing = s2.packing := by
    rcases ppStep_pack h5 with ⟨_, h, _⟩ | ⟨⟨t, ht⟩, _⟩
    · exact h
    · exact (hn t ht).elim
  have hrun : ppRun sem 0 (PPState.init env) (a ++ [l, nxt]) =
      .ok (s3, o0 ++ ((some o').toList ++ (o3.toList ++ []))) :=
    ppRun_append_of h0 (ppRun_cons_of h3 (ppRun_cons_of h5 rfl))
  have hat := C21_packing_at sem env (a ++ [l, nxt]) b (a.length + 1) (by simp) hrun
    (by simpa using h)
  unfold structPacking
  have hln := linenoAt_join (o0.map Out.text) o'.text ((o3.toList ++ os3).map Out.text) j
    (by intro x hx; obtain ⟨o, ho, rfl⟩ := List.mem_map.1 hx; exact hnl o (by simp [ho]))
    (hnl o' (by simp)) hj
  have htake : List.take a.length (o0 ++ ((some o').toList ++ (o3.toList ++ os3))) = o0 := by
    rw [← hlen']; simp
  rw [htake]
  simp only [List.map_append, List.map_map, List.length_map, hlen', Option.toList_some, List.map_cons,
    List.cons_append, List.nil_append] at hln ⊢
  have heq : List.map ((fun x => x.length + 1) ∘ Out.text) o0 = List.map (fun o => o.text.length + 1) o0 := rfl
  rw [heq] at hln
  rw [hln, hat, hpk3, hpk2]

/-- The full claim fails: a one-line struct directly followed by `#pragma pack(pop)` gets the packing
after the pop, because the recorded line numbers are 0-based and the struct's line number is
1-based. -/
theorem C21_counterexample :
    (preprocess demoSem [] c%"#pragma pack(push, 1)\nstruct s {char c; int i;};\n#pragma pack(pop)").map
      (fun r => (structPacking r.1.packList r.2 1)) = .ok none ∧
    (preprocess demoSem [] c%"#pragma pack(push, 1)\nstruct s {char c; int i;};\n\n#pragma pack(pop)").map
      (fun r => (structPacking r.1.packList r.2 1)) = .ok (some 1) := by
  exact ⟨rfl, rfl⟩

/-! ## C22: push and pop -/

theorem digitsVal_append (a b : Str) :
    digitsVal (a ++ b) = b.foldl (fun n c => 10 * n + (c.toNat - '0'.toNat)) (digitsVal a) := by
  simp [digitsVal]

theorem digitChar_val (n : Nat) (h : n < 10) : n.digitChar.toNat - '0'.toNat = n := by
  match n, h with
  | 0, _ | 1, _ | 2, _ | 3, _ | 4, _ | 5, _ | 6, _ | 7, _ | 8, _ | 9, _ => rfl

/-- Reading back the decimal digits of a number gives the number. -/
theorem digitsVal_natDigits (n : Nat) : digitsVal (natDigits n) = n := by
  unfold natDigits
  induction n using Nat.strongRecOn with
  | ind n ih =>
    by_cases h : n < 10
    · rw [Nat.toDigits_of_lt_base h]; have := digitChar_val n h; simpa [digitsVal] using this
    · rw [Nat.toDigits_of_base_le (by decide) (by omega), digitsVal_append, ih (n / 10) (by omega)]
      simp only [List.foldl_cons, List.foldl_nil]
      rw [digitChar_val _ (Nat.mod_lt n (by decide))]
      omega

theorem isDigits_natDigits (n : Nat) : isDigits (natDigits n) = true := by
  unfold isDigits natDigits
  have h1 : (Nat.toDigits 10 n).isEmpty = false := by
    have := Nat.toDigits_ne_nil (n := n) (b := 10)
    cases h : Nat.toDigits 10 n with
    | nil => exact (this h).elim
    | cons _ _ => rfl
  rw [h1]
  simp only [Bool.not_false, Bool.true_and, List.all_eq_true]
  intro c hc
  exact Nat.isDigit_of_mem_toDigits (by decide) (by decide) hc

theorem natDigits_ne (n : Nat) (s : Str) (h : ∃ c ∈ s, c.isDigit = false) : natDigits n ≠ s := by
  rintro rfl
  obtain ⟨c, hc, hd⟩ := h
  have := Nat.isDigit_of_mem_toDigits (b := 10) (by decide) (by decide) hc
  rw [hd] at this; cases this

theorem packOpts_num (n : Nat) (os : List Str) (acc : Option Str × Option Nat × Option Str) :
    packOpts (natDigits n :: os) acc = packOpts os (acc.1, some n, acc.2.2) := by
  have h1 := natDigits_ne n c%"push" ⟨'p', by simp, rfl⟩
  have h2 := natDigits_ne n c%"pop" ⟨'p', by simp, rfl⟩
  obtain ⟨pp, v, id⟩ := acc
  simp [packOpts, h1, h2, isDigits_natDigits, digitsVal_natDigits]

theorem packOpts_label (x : Str) (hx : GoodLabel x) (os : List Str)
    (acc : Option Str × Option Nat × Option Str) :
    packOpts (x :: os) acc = packOpts os (acc.1, acc.2.1, some x) := by
  obtain ⟨pp, v, id⟩ := acc
  obtain ⟨h1, h2, h3⟩ := hx
  have h4 : isDigits x = false := by
    cases h : isDigits x with
    | false => rfl
    | true => simp [isDigits] at h; exact (h3 ⟨h.1, h.2⟩).elim
  simp [packOpts, h1, h2, h4]

theorem packOpts_nil (acc : Option Str × Option Nat × Option Str) : packOpts [] acc = acc := rfl

theorem packOpts_push (os : List Str) (acc : Option Str × Option Nat × Option Str) :
    packOpts (c%"push" :: os) acc = packOpts os (some c%"push", acc.2.1, acc.2.2) := rfl

theorem packOpts_pop (os : List Str) (acc : Option Str × Option Nat × Option Str) :
    packOpts (c%"pop" :: os) acc = packOpts os (some c%"pop", acc.2.1, acc.2.2) := rfl

/-- Effect of a pragma as documented in the source comment, in terms of its form. -/
def Spec.packSem (i : Nat) (s : PPState E) : PackOp → Except PyErr (PPState E)
  | .set v => .ok { s with packing := v, packList := s.packList ++ [(i, v)] }
  | .push id v => .ok { s with
      packStack := s.packStack ++ [(v, id)], packing := v, packList := s.packList ++ [(i, v)] }
  | .pop none none =>
    match s.packStack.dropLast.getLast? with
    | none => .error .indexError
    | some (p, _) => .ok { s with
        packStack := s.packStack.dropLast, packing := p, packList := s.packList ++ [(i, p)] }
  | .pop none (some v) =>
    if s.packStack = [] then .error .indexError
    else .ok { s with
        packStack := s.packStack.dropLast, packing := some v, packList := s.packList ++ [(i, some v)] }
  | .pop (some x) none =>
    match (packTruncate x s.packStack).getLast? with
    | none => .error .indexError
    | some (p, _) => .ok { s with
        packStack := packTruncate x s.packStack, packing := p, packList := s.packList ++ [(i, p)] }
  | .pop (some x) (some v) => .ok { s with
        packStack := packTruncate x s.packStack, packing := some v, packList := s.packList ++ [(i, some v)] }

/-- The decoding of every form of `#pragma pack` (`pack()` counts as `pack` with the empty label, hence
as a reset). -/
theorem doPack_op (i : Nat) (s : PPState E) (op : PackOp) (txt : Str) (hg : op.Good)
    (hw : op.Writes txt) : doPack i s txt = Spec.packSem i s op := by
  unfold PackOp.Writes at hw
  simp only [doPack, hw]
  cases op with
  | set v =>
    cases v with
    | none => rfl
    | some n =>
      have h2 := natDigits_ne n c%"pop" ⟨'p', by simp, rfl⟩
      simp [PackOp.opts, packOpts_num, packOpts_nil, packEffect, Spec.packSem, h2]
  | push id v =>
    cases id with
    | none =>
      cases v with
      | none => rfl
      | some n =>
        simp [PackOp.opts, packOpts_push, packOpts_num, packOpts_nil, packEffect, Spec.packSem]
    | some x =>
      have hx : GoodLabel x := hg x rfl
      cases v with
      | none =>
        simp [PackOp.opts, packOpts_push, packOpts_label _ hx, packOpts_nil, packEffect, Spec.packSem]
      | some n =>
        simp [PackOp.opts, packOpts_push, packOpts_label _ hx, packOpts_num, packOpts_nil, packEffect,
          Spec.packSem]
  | pop id v =>
    cases id with
    | none =>
      cases v with
      | none =>
        simp only [PackOp.opts, packOpts_pop, packOpts_nil, packEffect, Spec.packSem]
        by_cases h : s.packStack = []
        · simp [h, packOpts_pop, packOpts_nil]
        · simp [h, packOpts_pop, packOpts_nil]
          rfl
      | some n =>
        by_cases h : s.packStack = [] <;>
        simp [PackOp.opts, packOpts_pop, packOpts_num, packOpts_nil, packEffect, Spec.packSem, h]
    | some x =>
      have hx : GoodLabel x := hg x rfl
      cases v with
      | none =>
        simp [PackOp.opts, packOpts_pop, packOpts_label _ hx, packOpts_nil, packEffect, Spec.packSem]
        rfl
      | some n =>
        simp [PackOp.opts, packOpts_pop, packOpts_label _ hx, packOpts_num, packOpts_nil, packEffect,
          Spec.packSem]

/-- A sequence of pragmas, written in any way, on given lines. -/
def Spec.runPacks (s : PPState E) : List (Nat × Str) → Except PyErr (PPState E)
  | [] => .ok s
  | (i, t) :: r =>
    match doPack i s t with
    | .error e => .error e
    | .ok s' => Spec.runPacks s' r

theorem runPacks_append_ok {a b : List (Nat × Str)} : ∀ {s s2 : PPState E},
    Spec.runPacks s (a ++ b) = .ok s2 → ∃ s1, Spec.runPacks s a = .ok s1 ∧ Spec.runPacks s1 b = .ok s2 := by
  induction a with
  | nil => intro s s2 h; exact ⟨s, rfl, h⟩
  | cons p a ih =>
    obtain ⟨i, t⟩ := p
    intro s s2 h
    simp only [List.cons_append, Spec.runPacks] at h ⊢
    split at h
    · cases h
    · exact ih h

/-- `txts` writes the pragmas `ops`. -/
def Spec.WritesAll (txts : List (Nat × Str)) (ops : List PackOp) : Prop :=
  List.Forall₂ (fun (p : Nat × Str) (op : PackOp) => op.Good ∧ op.Writes p.2) txts ops

theorem balanced_stack {ops : List PackOp} (hb : Balanced ops) : ∀ {txts : List (Nat × Str)}
    {s s' : PPState E}, s.packStack ≠ [] → Spec.WritesAll txts ops → Spec.runPacks s txts = .ok s' →
    s'.packStack = s.packStack := by
  induction hb with
  | nil => intro txts s s' _ hw h; cases hw; simp only [Spec.runPacks] at h; cases h; rfl
  | set v hl ih =>
    intro txts s s' hne hw h
    cases hw with
    | cons hp hr =>
      rename_i p txts
      obtain ⟨i, t⟩ := p
      simp only [Spec.runPacks, doPack_op i s _ t hp.1 hp.2, Spec.packSem] at h
      have := ih (s := { s with packing := v, packList := s.packList ++ [(i, v)] }) hne hr h
      exact this
  | group id v w ha hb iha ihb =>
    intro txts s s' hne hw h
    cases hw with
    | cons hp hr =>
      rename_i a b p l2
      obtain ⟨i, t⟩ := p
      simp only [Spec.runPacks, doPack_op i s _ t hp.1 hp.2, Spec.packSem] at h
      obtain ⟨t1, t2, h1, h2, rfl⟩ : ∃ t1 t2, Spec.WritesAll t1 a ∧ Spec.WritesAll t2 (.pop none w :: b) ∧
          l2 = t1 ++ t2 := by
        refine ⟨l2.take a.length, l2.drop a.length, ?_, ?_, (List.take_append_drop _ _).symm⟩
        · have := List.forall₂_take a.length hr; rw [List.take_left] at this; exact this
        · have := List.forall₂_drop a.length hr; rw [List.drop_left] at this; exact this
      obtain ⟨s1, h3, h4⟩ := runPacks_append_ok h
      have e1 := iha (by simp) h1 h3
      cases h2 with
      | cons hp2 hr2 =>
        rename_i p2 l3
        obtain ⟨i2, u⟩ := p2
        simp only [Spec.runPacks, doPack_op i2 s1 _ u hp2.1 hp2.2] at h4
        have e2 : s1.packStack.dropLast = s.packStack := by rw [e1]; simp
        cases w with
        | none =>
          simp only [Spec.packSem, e2] at h4
          split at h4
          · cases h4
          · rename_i sx hsx
            split at hsx
            · cases hsx
            · cases hsx
              exact ihb (s := { s1 with packStack := s.packStack, packing := _, packList := _ }) hne hr2 h4
        | some w =>
          have : s1.packStack ≠ [] := by rw [e1]; simp
          simp only [Spec.packSem, e2, this, if_false] at h4
          exact ihb (s := { s1 with packStack := s.packStack, packing := _, packList := _ }) hne hr2 h4

/-- **C22.** A push, any balanced sequence, and a pop: the pack stack is as before, and the packing in
force is the value of the enclosing push. -/
theorem C22_balanced (s s' : PPState E) (id : Option Str) (v : Option Nat) (ops : List PackOp)
    (hb : Balanced ops) (txts : List (Nat × Str)) (hne : s.packStack ≠ [])
    (hw : Spec.WritesAll txts (.push id v :: (ops ++ [.pop none none])))
    (h : Spec.runPacks s txts = .ok s') :
    s'.packStack = s.packStack ∧ s'.packing = (s.packStack.getLast hne).1 := by
  cases hw with
  | cons hp hr =>
    rename_i p l2
    obtain ⟨i, t⟩ := p
    simp only [Spec.runPacks, doPack_op i s _ t hp.1 hp.2, Spec.packSem] at h
    obtain ⟨t1, t2, h1, h2, rfl⟩ : ∃ t1 t2, Spec.WritesAll t1 ops ∧ Spec.WritesAll t2 [.pop none none] ∧
        l2 = t1 ++ t2 := by
      refine ⟨l2.take ops.length, l2.drop ops.length, ?_, ?_, (List.take_append_drop _ _).symm⟩
      · have := List.forall₂_take ops.length hr; rw [List.take_left] at this; exact this
      · have := List.forall₂_drop ops.length hr; rw [List.drop_left] at this; exact this
    obtain ⟨s1, h3, h4⟩ := runPacks_append_ok h
    have e1 := balanced_stack hb (by simp) h1 h3
    cases h2 with
    | cons hp2 hr2 =>
      cases hr2
      rename_i p2
      obtain ⟨i2, u⟩ := p2
      have e2 : s1.packStack.dropLast = s.packStack := by rw [e1]; simp
      simp only [Spec.runPacks, doPack_op i2 s1 _ u hp2.1 hp2.2, Spec.packSem, e2,
        List.getLast?_eq_some_getLast hne] at h4
      cases h4
      exact ⟨rfl, rfl⟩

/-- **C22 (partial).** If the packing in force before the push was itself set by a push (or nothing
was set), then a push, any balanced sequence, and a pop restore it.  Missing: packing set by a plain
`pack(n)`, where the claim is false (`C22_counterexample_set`). -/
theorem C22_restores_partial (s s' : PPState E) (id : Option Str) (v : Option Nat) (ops : List PackOp)
    (hb : Balanced ops) (txts : List (Nat × Str)) (hne : s.packStack ≠ [])
    (htop : s.packing = (s.packStack.getLast hne).1)
    (hw : Spec.WritesAll txts (.push id v :: (ops ++ [.pop none none])))
    (h : Spec.runPacks s txts = .ok s') : s'.packing = s.packing := by
  rw [(C22_balanced s s' id v ops hb txts hne hw h).2, htop]

/-- **C22 (partial).** Refinement of the documented semantics by any sequence of pushes with a value and
bare pops that never pops more than was pushed; in particular such a sequence never raises. -/
theorem C22_msvc_partial (ops : List PackOp) : ∀ (txts : List (Nat × Str)) (s : PPState E)
    (m : Msvc), (∀ o ∈ ops, o.Simple) → NoUnderflow m.saved.length ops →
    Spec.WritesAll txts ops → s.packing = m.cur →
    (s.packStack.map Prod.fst).reverse = m.cur :: m.saved →
    ∃ s', Spec.runPacks s txts = .ok s' ∧ s'.packing = (m.run ops).cur := by
  induction ops with
  | nil =>
    intro txts s m _ _ hw hc hst
    cases hw; exact ⟨s, rfl, hc⟩
  | cons op ops ih =>
    intro txts s m hs hu hw hc hst
    cases hw with
    | cons hp hr =>
      rename_i p l2
      obtain ⟨i, t⟩ := p
      simp only [Spec.runPacks, doPack_op i s _ t hp.1 hp.2]
      have hs1 := hs op (by simp)
      have hs2 : ∀ o ∈ ops, o.Simple := fun o ho => hs o (by simp [ho])
      match op, hs1 with
      | .push id (some v), _ =>
        simp only [Spec.packSem]
        have := ih l2 { s with packStack := s.packStack ++ [(some v, id)], packing := some v, packList := s.packList ++ [(i, some v)] }
          ⟨some v, m.cur :: m.saved⟩ hs2 (by simpa [NoUnderflow] using hu) hr rfl (by simp [← hst])
        simpa [Msvc.run, Msvc.step] using this
      | .pop none none, _ =>
        match hm : m.saved with
        | [] => simp [hm, NoUnderflow] at hu
        | c :: cs =>
          rw [hm] at hst hu
          have hst2 : s.packStack.map Prod.fst = (c :: cs).reverse ++ [m.cur] := by
            have := congrArg List.reverse hst; simpa using this
          obtain ⟨a, b, h1, h2, h3⟩ := List.map_eq_append_iff.1 hst2
          obtain ⟨q, rfl, hq⟩ : ∃ q, b = [q] ∧ q.1 = m.cur := by
            match b, h3 with
            | [q], h3 => simp at h3; exact ⟨q, rfl, h3⟩
            | _ :: _ :: _, h3 => simp at h3
          have hdl : s.packStack.dropLast = a := by rw [h1]; simp
          have h2' : a.map Prod.fst = cs.reverse ++ [c] := by simpa using h2
          obtain ⟨a', b', h4, h5, h6⟩ := List.map_eq_append_iff.1 h2'
          obtain ⟨q', rfl, hq'⟩ : ∃ q, b' = [q] ∧ q.1 = c := by
            match b', h6 with
            | [q], h6 => simp at h6; exact ⟨q, rfl, h6⟩
            | _ :: _ :: _, h6 => simp at h6
          have hgl : a.getLast? = some q' := by rw [h4]; simp
          obtain ⟨qa, qb⟩ := q'
          simp only [Spec.packSem, hdl, hgl]
          simp only at hq'; subst hq'
          have := ih l2 { s with packStack := a, packing := qa, packList := s.packList ++ [(i, qa)] }
            ⟨qa, cs⟩ hs2 (by simpa [NoUnderflow] using hu) hr rfl (by simp [h2'])
          simpa [Msvc.run, Msvc.step, hm] using this

/-- **C22.** Popping a label: the stack is cut just before the oldest open push with that label, and the
packing of the push before it is restored. -/
theorem C22_pop_label (i : Nat) (s : PPState E) (x : Str) (hx : GoodLabel x) (txt : Str)
    (hw : (PackOp.pop (some x) none).Writes txt) (below above : List (Option Nat × Option Str))
    (v p : Option Nat) (y : Option Str) (hst : s.packStack = below ++ [(p, y)] ++ (v, some x) :: above)
    (hold : ∀ e ∈ below ++ [(p, y)], e.2 ≠ some x) :
    ∃ s', doPack i s txt = .ok s' ∧ s'.packStack = below ++ [(p, y)] ∧ s'.packing = p := by
  have htr : packTruncate x s.packStack = below ++ [(p, y)] := by
    unfold packTruncate
    have hany : s.packStack.any (fun e => e.2 = some x) = true := by
      rw [hst, List.any_eq_true]; exact ⟨(v, some x), by simp, by simp⟩
    rw [hany, if_pos rfl, hst, List.takeWhile_append_of_pos (by simpa using hold)]
    simp
  rw [doPack_op i s _ txt (by simpa [PackOp.Good] using hx) hw]
  simp only [Spec.packSem, htr, List.getLast?_append, List.getLast?_singleton]
  exact ⟨_, rfl, rfl, rfl⟩

/-- **C22.** More bare pops than pushes raise IndexError. -/
theorem C22_pop_underflow (i : Nat) (s : PPState E) (txt : Str) (e : Option Nat × Option Str)
    (hw : (PackOp.pop none none).Writes txt) (hs : s.packStack = [e]) :
    doPack i s txt = .error .indexError := by
  rw [doPack_op i s _ txt (by simp [PackOp.Good]) hw]
  simp [Spec.packSem, hs]

/-- ... but a pop with a value goes unnoticed the first time. -/
theorem C22_pop_value_underflow (i : Nat) (s : PPState E) (txt : Str) (n : Nat)
    (e : Option Nat × Option Str) (hw : (PackOp.pop none (some n)).Writes txt) (hs : s.packStack = [e]) :
    ∃ s', doPack i s txt = .ok s' ∧ s'.packStack = [] := by
  rw [doPack_op i s _ txt (by simp [PackOp.Good]) hw]
  simp [Spec.packSem, hs]

/-- The packings recorded for a text. -/
def packsOf (t : Str) : Except PyErr (List (Option Nat)) :=
  (preprocess demoSem [] t).map (fun r => r.1.packList.map Prod.snd)

/-- The documented behaviour fails in three ways: a packing set by `pack(8)` is not restored by a
push/pop pair; a push without a value resets the packing instead of keeping it; a pop of a label
goes back to the oldest push with that label, not the most recent. -/
theorem C22_counterexample_set :
    packsOf c%"#pragma pack(8)\n#pragma pack(push, 4)\n#pragma pack(pop)" = .ok [none, some 8, some 4, none] ∧
    packsOf c%"#pragma pack(push, 4)\n#pragma pack(push)" = .ok [none, some 4, none] ∧
    packsOf c%"#pragma pack(push,a,1)\n#pragma pack(push,2)\n#pragma pack(push,a,4)\n#pragma pack(pop,a)"
      = .ok [none, some 1, some 2, some 4, none] := by
  exact ⟨rfl, rfl, rfl⟩

example : Spec.WritesAll [(1, c%"push, 4"), (2, c%"push,lbl ,8"), (3, c%"2"), (4, c%" pop"), (5, c%"pop")]
    (.push none (some 4) :: ([.push (some c%"lbl") (some 8), .set (some 2), .pop none none] ++
      [.pop none none])) ∧
    Balanced [.push (some c%"lbl") (some 8), .set (some 2), .pop none none] := by
  refine ⟨?_, .group (some c%"lbl") (some 8) none (.set (some 2) .nil) .nil⟩
  refine .cons ⟨?_, by rfl⟩ (.cons ⟨?_, by rfl⟩ (.cons ⟨?_, by rfl⟩ (.cons ⟨?_, by rfl⟩
    (.cons ⟨?_, by rfl⟩ .nil)))) <;> simp [PackOp.Good, GoodLabel]

end Pyclib
