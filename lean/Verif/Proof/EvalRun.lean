import Verif.Spec.Eval
/-
Proof that the modelled part of Python's `eval` computes the value that C gives to an expression of the
fragment: from tokens to values.
-/
namespace Pyclib

open Spec

/-- The operator of Python with the same text. -/
def kop : KBin → KOp
  | .or => .or | .xor => .xor | .and => .and | .shl => .shl | .shr => .shr | .add => .add | .sub => .sub
  | .mul => .mul | .eq => .eq | .ne => .ne | .lt => .lt | .gt => .gt | .le => .le | .ge => .ge | _ => .mod

/-- The token of Python with the same text. -/
def kun : KUn → KTok
  | .plus => .op .add | .minus => .op .sub | .compl => .tilde

/-- The tokens of Python of an expression. -/
def ktoks : KE → List KTok
  | .lit v _ => [.num (litValue v)]
  | .id w => [.id w]
  | .par e => .lp :: (ktoks e ++ [.rp])
  | .un o e => kun o :: ktoks e
  | .bin o a b => ktoks a ++ .op (kop o) :: ktoks b

/-- With enough fuel, reading gives `x`. -/
def KRuns (look : Str → Option Int) (g : KGoal) (ts : List KTok) (x : Int × List KTok) : Prop :=
  ∃ n0, ∀ n, n0 ≤ n → kRun look n g ts = some x

variable {look : Str → Option Int}

theorem KRuns.step {g : KGoal} {ts : List KTok} {x : Int × List KTok}
    (h : ∃ n0, ∀ n, n0 ≤ n → kRun look (n + 1) g ts = some x) : KRuns look g ts x := by
  obtain ⟨n0, h⟩ := h
  refine ⟨n0 + 1, fun n hn => ?_⟩
  obtain ⟨k, rfl⟩ : ∃ k, n = k + 1 := ⟨n - 1, by omega⟩
  exact h k (by omega)

theorem KRuns.lvl {k : Nat} (hk : k < 7) {ts r : List KTok} {v : Int} {x : Int × List KTok}
    (h1 : KRuns look (.lvl (k + 1)) ts (v, r)) (h2 : KRuns look (.loop k v) r x) :
    KRuns look (.lvl k) ts x := by
  obtain ⟨n1, h1⟩ := h1
  obtain ⟨n2, h2⟩ := h2
  refine .step ⟨max n1 n2, fun n hn => ?_⟩
  simp only [kRun, hk, if_true, h1 n (by omega), Option.bind_some]
  exact h2 n (by omega)

theorem KRuns.un {ts : List KTok} {x : Int × List KTok} (h : KRuns look .un ts x) :
    KRuns look (.lvl 7) ts x := by
  obtain ⟨n1, h1⟩ := h
  refine .step ⟨n1, fun n hn => ?_⟩
  simp only [kRun, Nat.lt_irrefl, if_false]
  exact h1 n hn

theorem KRuns.loop {k : Nat} {o : KOp} (ho : o.level = k) {a b v : Int} {us r : List KTok}
    {x : Int × List KTok} (h1 : KRuns look (.lvl (k + 1)) us (b, r)) (hv : o.app a b = some v)
    (h2 : KRuns look (.loop k v) r x) : KRuns look (.loop k a) (.op o :: us) x := by
  obtain ⟨n1, h1⟩ := h1
  obtain ⟨n2, h2⟩ := h2
  refine .step ⟨max n1 n2, fun n hn => ?_⟩
  simp only [kRun, ho, if_true, h1 n (by omega), Option.bind_some, hv]
  exact h2 n (by omega)

/-- The next token does not continue a sequence of operands of level `k` or higher. -/
def KStop (k : Nat) (r : List KTok) : Prop :=
  ∀ t, r.head? = some t → t = .rp ∨ ∃ o : KOp, t = .op o ∧ o.level < k

theorem KStop.mono {k k' : Nat} {r : List KTok} (h : KStop k r) (hk : k ≤ k') : KStop k' r :=
  fun t ht => (h t ht).imp id fun ⟨o, h1, h2⟩ => ⟨o, h1, by omega⟩

theorem KRuns.stop {k : Nat} {a : Int} {r : List KTok} (h : KStop k r) : KRuns look (.loop k a) r (a, r) := by
  refine .step ⟨0, fun n _ => ?_⟩
  cases r with
  | nil => rfl
  | cons t r =>
    rcases h t rfl with rfl | ⟨o, rfl, ho⟩
    · rfl
    · simp only [kRun]
      rw [if_neg (by omega)]

/-- The value that C gives to an operation of the fragment is the value that Python gives to it. -/
theorem kop_app {o : KBin} (ho : o ≠ .div) {x y v : Int}
    (hm : o = .mod → 0 ≤ x ∧ 0 ≤ y) (h : o.value x y = some v) : (kop o).app x y = some v := by
  cases o <;> simp_all [KBin.value, KOp.app, kop]
  · rw [← h.2, Int.shiftRight_eq_div_pow, Int.fdiv_eq_ediv_of_nonneg _ (Int.pow_nonneg (by decide))]
    simp
  · rw [← h.2, Int.fmod_eq_tmod_of_nonneg hm.1 hm.2]

theorem not_int (a : Int) : -a - 1 = a.not := by
  cases a with
  | ofNat n => simp [Int.not, Int.negSucc_eq]; omega
  | negSucc n => simp [Int.not, Int.negSucc_eq]

/-- The levels of Python and of C are in step. -/
def pyLevel (e : KE) : Nat :=
  match e with
  | .bin o _ _ => (kop o).level
  | _ => 7

theorem level_le {o : KBin} (ho : o ≠ .div) {e : KE} (he : ∀ o' a b, e = .bin o' a b → o' ≠ .div)
    (hc : o ∈ [.or, .xor, .and, .eq, .ne, .lt, .gt, .le, .ge] → e.isCmp = false) :
    (o.level ≤ e.level → (kop o).level ≤ pyLevel e) ∧ (o.level < e.level → (kop o).level < pyLevel e) := by
  cases e with
  | bin o' a b =>
    have := he o' a b rfl
    revert ho this hc
    simp only [pyLevel, KE.level, KE.isCmp]
    cases o <;> cases o' <;> decide
  | _ => cases o <;> simp_all [KBin.level, kop, KOp.level, pyLevel, KE.level]

theorem frag_bin {env : Str → Option Int} {e : KE} (h : e.Frag env) :
    ∀ o' a b, e = .bin o' a b → o' ≠ .div := by
  rintro o' a b rfl
  exact h.1

/-- How an expression is read. -/
structure KReads (look : Str → Option Int) (e : KE) (v : Int) : Prop where
  un : pyLevel e = 7 → ∀ r, KRuns look .un (ktoks e ++ r) (v, r)
  lvl : ∀ k, k ≤ pyLevel e → k < 7 → ∀ r x, KStop (k + 1) r → KRuns look (.loop k v) r x →
    KRuns look (.lvl k) (ktoks e ++ r) x

theorem KReads.full {e : KE} {v : Int} (h : KReads look e v) {k : Nat} (hk : k ≤ pyLevel e) {r : List KTok}
    (hr : KStop k r) : KRuns look (.lvl k) (ktoks e ++ r) (v, r) := by
  by_cases h6 : k < 7
  · exact h.lvl k hk h6 r _ (hr.mono (by omega)) (.stop hr)
  · have : pyLevel e ≤ 7 := by
      cases e with
      | bin o a b => cases o <;> simp [pyLevel, kop, KOp.level]
      | _ => simp [pyLevel]
    have : k = 7 := by omega
    subst this
    exact (h.un (by omega) r).un

theorem KReads.ofUn {e : KE} {v : Int} (h : ∀ r, KRuns look .un (ktoks e ++ r) (v, r)) : KReads look e v := by
  refine ⟨fun _ => h, ?_⟩
  have key : ∀ j, j ≤ 6 → ∀ r x, KStop (6 - j + 1) r → KRuns look (.loop (6 - j) v) r x →
      KRuns look (.lvl (6 - j)) (ktoks e ++ r) x := by
    intro j
    induction j with
    | zero =>
      intro _ r x hr hx
      exact .lvl (by omega) (h r).un hx
    | succ j ih =>
      intro hj r x hr hx
      refine .lvl (by omega) (v := v) (r := r) ?_ hx
      have e1 : 6 - (j + 1) + 1 = 6 - j := by omega
      rw [e1] at hr ⊢
      exact ih (by omega) r _ (hr.mono (by omega)) (.stop hr)
  intro k _ hk r x hr hx
  have := key (6 - k) (by omega) r x
  rw [show 6 - (6 - k) = k by omega] at this
  exact this hr hx

/-- An expression with an operand in front is read as it is at the next level. -/
theorem KReads.ofPrim {e : KE} {v : Int} (hf : ∃ t ts, ktoks e = t :: ts ∧ (t = .lp ∨ (∃ n, t = .num n) ∨ ∃ w, t = .id w))
    (h : ∀ r, KRuns look .prim (ktoks e ++ r) (v, r)) : KReads look e v := by
  refine .ofUn fun r => ?_
  obtain ⟨n1, h1⟩ := h r
  refine .step ⟨n1, fun n hn => ?_⟩
  obtain ⟨t, ts, e1, ht⟩ := hf
  rw [← h1 n hn, e1]
  rcases ht with rfl | ⟨_, rfl⟩ | ⟨_, rfl⟩ <;> rfl

/-- An expression of the fragment is read by Python with its value in C. -/
theorem kReads (env : Str → Option Int) (hl : ∀ w v, env w = some v → look w = some v) :
    ∀ (e : KE) (v : Int), e.Grammar → e.Frag env → e.value env = some v → KReads look e v
  | .lit w s, v, _, _, hv => by
    refine .ofPrim ⟨_, _, rfl, .inr (.inl ⟨_, rfl⟩)⟩ fun r => .step ⟨0, fun n _ => ?_⟩
    simp only [KE.value, Option.some.injEq] at hv
    subst hv
    rfl
  | .id w, v, _, _, hv => by
    refine .ofPrim ⟨_, _, rfl, .inr (.inr ⟨_, rfl⟩)⟩ fun r => .step ⟨0, fun n _ => ?_⟩
    simp [ktoks, kRun, hl w v hv]
  | .par e, v, hg, hf, hv => by
    refine .ofPrim ⟨_, _, rfl, .inl rfl⟩ fun r => ?_
    have ih := kReads env hl e v hg hf hv
    obtain ⟨n1, h1⟩ := ih.full (k := 0) (Nat.zero_le _) (r := .rp :: r) (fun t ht => by simp at ht; exact .inl ht.symm)
    refine .step ⟨n1, fun n hn => ?_⟩
    have e1 : ktoks (.par e) ++ r = .lp :: (ktoks e ++ .rp :: r) := by simp [ktoks]
    rw [e1]
    simp only [kRun, h1 n hn, Option.bind_some]
  | .un o e, v, hg, hf, hv => by
    simp only [KE.value, Option.map_eq_some_iff] at hv
    obtain ⟨a, ha, rfl⟩ := hv
    have ih := kReads env hl e a hg.2 hf ha
    have h6 : pyLevel e = 7 := by
      cases e with
      | bin o a b => exact absurd hg.1 (by cases o <;> simp [KE.level, KBin.level])
      | _ => rfl
    refine .ofUn fun r => ?_
    obtain ⟨n1, h1⟩ := ih.un h6 r
    refine .step ⟨n1, fun n hn => ?_⟩
    have := h1 n hn
    cases o
    · simp only [ktoks, kun, List.cons_append, kRun, this]; rfl
    · simp only [ktoks, kun, List.cons_append, kRun, this]; rfl
    · simp only [ktoks, kun, List.cons_append, kRun, this, Option.map_some, KUn.value]
      rw [not_int]
  | .bin o a b, v, hg, hf, hv => by
    simp only [KE.value, Option.bind_eq_some_iff] at hv
    obtain ⟨x, hx, y, hy, hv⟩ := hv
    obtain ⟨ho, hfa, hfb, hm, hc⟩ := hf
    obtain ⟨ga, gb, gga, ggb⟩ := hg
    have iha := kReads env hl a x gga hfa hx
    have ihb := kReads env hl b y ggb hfb hy
    have la := (level_le ho (frag_bin hfa) fun h => (hc h).1).1 ga
    have lb := (level_le ho (frag_bin hfb) fun h => (hc h).2).2 gb
    have happ := kop_app ho (fun e => ⟨(hm e).1 x hx, (hm e).2 y hy⟩) hv
    have h6 : (kop o).level < 7 := by cases o <;> simp [kop, KOp.level]
    have key : ∀ r x', KStop ((kop o).level + 1) r → KRuns look (.loop (kop o).level v) r x' →
        KRuns look (.lvl (kop o).level) (ktoks (.bin o a b) ++ r) x' := by
      intro r x' hr hx'
      have e1 : ktoks (.bin o a b) ++ r = ktoks a ++ .op (kop o) :: (ktoks b ++ r) := by simp [ktoks]
      rw [e1]
      refine iha.lvl _ la h6 _ _ ?_ ?_
      · intro t ht
        simp at ht
        exact .inr ⟨_, ht.symm, by omega⟩
      · exact .loop rfl (ihb.full lb hr) happ hx'
    refine ⟨fun h => absurd h (by simp only [pyLevel]; omega), ?_⟩
    have down : ∀ j, j ≤ (kop o).level → ∀ r x', KStop ((kop o).level - j + 1) r →
        KRuns look (.loop ((kop o).level - j) v) r x' →
        KRuns look (.lvl ((kop o).level - j)) (ktoks (.bin o a b) ++ r) x' := by
      intro j
      induction j with
      | zero => intro _; exact key
      | succ j ih =>
        intro hj r x' hr hx'
        refine .lvl (by omega) (v := v) (r := r) ?_ hx'
        have e1 : (kop o).level - (j + 1) + 1 = (kop o).level - j := by omega
        rw [e1] at hr ⊢
        exact ih (by omega) r _ (hr.mono (by omega)) (.stop hr)
    intro k hk _ r x' hr hx'
    simp only [pyLevel] at hk
    have := down ((kop o).level - k) (by omega) r x'
    rw [show (kop o).level - ((kop o).level - k) = k by omega] at this
    exact this hr hx'

/-! ### Fuel -/

/-- Whether at least one token is read. -/
def KGoal.needs : KGoal → Nat
  | .loop _ _ => 0
  | _ => 1

theorem kRun_consumes : ∀ (n : Nat) (g : KGoal) (ts : List KTok) (v : Int) (r : List KTok),
    kRun look n g ts = some (v, r) → r.length + g.needs ≤ ts.length := by
  intro n
  induction n with
  | zero => intro g ts v r h; simp [kRun] at h
  | succ n ih =>
    intro g ts v r h
    cases g with
    | lvl k =>
      simp only [kRun] at h
      split at h
      · simp only [Option.bind_eq_some_iff] at h
        obtain ⟨p, h1, h2⟩ := h
        have h1 := ih _ _ _ _ h1
        have h2 := ih _ _ _ _ h2
        simp only [KGoal.needs] at h1 h2 ⊢
        omega
      · exact ih .un _ _ _ h
    | loop k a =>
      simp only [kRun] at h
      split at h
      · split at h
        · simp only [Option.bind_eq_some_iff] at h
          obtain ⟨p, h1, w, _, h2⟩ := h
          have h1 := ih _ _ _ _ h1
          have h2 := ih _ _ _ _ h2
          simp only [KGoal.needs, List.length_cons] at h1 h2 ⊢
          omega
        · cases h; simp [KGoal.needs]
      · cases h; simp [KGoal.needs]
    | un =>
      simp only [kRun] at h
      split at h
      · simp only [Option.map_eq_some_iff] at h
        obtain ⟨p, h1, h2⟩ := h
        cases h2
        have h1 := ih _ _ _ _ h1
        simp only [KGoal.needs, List.length_cons] at h1 ⊢
        omega
      · have h1 := ih _ _ _ _ h
        simp only [KGoal.needs, List.length_cons] at h1 ⊢
        omega
      · simp only [Option.map_eq_some_iff] at h
        obtain ⟨p, h1, h2⟩ := h
        cases h2
        have h1 := ih _ _ _ _ h1
        simp only [KGoal.needs, List.length_cons] at h1 ⊢
        omega
      · exact ih .prim _ _ _ h
    | prim =>
      simp only [kRun] at h
      split at h
      · cases h; simp [KGoal.needs]
      · simp only [Option.map_eq_some_iff] at h
        obtain ⟨p, h1, h2⟩ := h
        cases h2
        simp [KGoal.needs]
      · simp only [Option.bind_eq_some_iff] at h
        obtain ⟨p, h1, h2⟩ := h
        have h1 := ih _ _ _ _ h1
        split at h2
        · rename_i hp
          cases h2
          rw [hp] at h1
          simp only [KGoal.needs, List.length_cons] at h1 ⊢
          omega
        · cases h2
      · cases h

/-- Steps that may be taken without reading a token. -/
def KGoal.rank : KGoal → Nat
  | .lvl k => 10 - min k 7
  | .loop _ _ => 1
  | .un => 2
  | .prim => 1

theorem kRun_stable : ∀ (n m : Nat) (g : KGoal) (ts : List KTok),
    10 * ts.length + g.rank ≤ n → 10 * ts.length + g.rank ≤ m → kRun look n g ts = kRun look m g ts := by
  intro n
  induction n with
  | zero => intro m g ts h; cases g <;> simp only [KGoal.rank] at h <;> omega
  | succ n ih =>
    intro m g ts hn hm
    cases m with
    | zero => cases g <;> simp only [KGoal.rank] at hm <;> omega
    | succ m =>
      cases g with
      | lvl k =>
        simp only [KGoal.rank] at hn hm
        simp only [kRun]
        split
        · rw [ih m (.lvl (k + 1)) ts (by simp only [KGoal.rank]; omega) (by simp only [KGoal.rank]; omega)]
          cases h : kRun look m (.lvl (k + 1)) ts with
          | none => rfl
          | some p =>
            have := kRun_consumes _ _ _ _ _ h
            simp only [KGoal.needs] at this
            simp only [Option.bind_some]
            exact ih m _ _ (by simp only [KGoal.rank]; omega) (by simp only [KGoal.rank]; omega)
        · exact ih m _ _ (by simp only [KGoal.rank]; omega) (by simp only [KGoal.rank]; omega)
      | loop k a =>
        simp only [KGoal.rank] at hn hm
        simp only [kRun]
        split
        · rename_i o us
          simp only [List.length_cons] at hn hm
          split
          · rw [ih m (.lvl (k + 1)) us (by simp only [KGoal.rank]; omega) (by simp only [KGoal.rank]; omega)]
            cases h : kRun look m (.lvl (k + 1)) us with
            | none => rfl
            | some p =>
              have := kRun_consumes _ _ _ _ _ h
              simp only [KGoal.needs] at this
              simp only [Option.bind_some]
              congr 1
              funext v
              exact ih m _ _ (by simp only [KGoal.rank]; omega) (by simp only [KGoal.rank]; omega)
          · rfl
        · rfl
      | un =>
        simp only [KGoal.rank] at hn hm
        simp only [kRun]
        split
        · simp only [List.length_cons] at hn hm
          rw [ih m .un _ (by simp only [KGoal.rank]; omega) (by simp only [KGoal.rank]; omega)]
        · simp only [List.length_cons] at hn hm
          rw [ih m .un _ (by simp only [KGoal.rank]; omega) (by simp only [KGoal.rank]; omega)]
        · simp only [List.length_cons] at hn hm
          rw [ih m .un _ (by simp only [KGoal.rank]; omega) (by simp only [KGoal.rank]; omega)]
        · exact ih m _ _ (by simp only [KGoal.rank]; omega) (by simp only [KGoal.rank]; omega)
      | prim =>
        simp only [KGoal.rank] at hn hm
        simp only [kRun]
        split
        · rfl
        · rfl
        · simp only [List.length_cons] at hn hm
          rw [ih m (.lvl 0) _ (by simp only [KGoal.rank]; omega) (by simp only [KGoal.rank]; omega)]
        · rfl

/-- The fuel of `kEval` is sufficient: more does not change the result. -/
theorem kEval_fuel (ts : List KTok) (n : Nat) (hn : 10 * ts.length + 10 ≤ n) :
    kRun look (10 * ts.length + 10) (.lvl 0) ts = kRun look n (.lvl 0) ts :=
  kRun_stable _ _ _ _ (by simp [KGoal.rank]) (by simp [KGoal.rank]; omega)

theorem kEval_value (env : Str → Option Int) (hl : ∀ w v, env w = some v → look w = some v) (e : KE) (v : Int)
    (hg : e.Grammar) (hf : e.Frag env) (hv : e.value env = some v) : kEval look (ktoks e) = some v := by
  obtain ⟨n0, h⟩ := (kReads env hl e v hg hf hv).full (k := 0) (Nat.zero_le _) (r := []) (fun t ht => by simp at ht)
  rw [List.append_nil] at h
  unfold kEval
  rw [kEval_fuel _ (max n0 (10 * (ktoks e).length + 10)) (by omega), h _ (by omega)]

end Pyclib
