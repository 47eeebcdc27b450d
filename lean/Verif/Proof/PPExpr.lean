import Verif.Spec.PPExpr
import Verif.Props.Macro
import Verif.Props.Preproc
/-! Helper lemmas about the evaluation of `#if` conditions. -/
namespace Pyclib
open Spec

/-! ### The reader: consumption and fuel -/

/-- Loop goals may consume nothing. -/
def Goal.isLoop : Goal → Bool
  | .orL _ | .andL _ | .cmpL _ _ | .addL _ | .mulL _ => true
  | _ => false

/-- Height of a goal. -/
def Goal.rank : Goal → Nat
  | .or => 9 | .and => 8 | .not => 7 | .cmp => 6 | .add => 5 | .mul => 4 | .un => 3 | .prim => 2
  | _ => 1

theorem run_consumes : ∀ (n : Nat) (g : Goal) (ts : List PTok) (v : Int) (r : List PTok),
    run n g ts = some (v, r) → r.length + (if g.isLoop then 0 else 1) ≤ ts.length := by
  intro n
  induction n with
  | zero => intro g ts v r h; simp [run] at h
  | succ n ih =>
    have two : ∀ (g1 : Goal) (g2 : Int → Goal) (ts : List PTok) (v : Int) (r : List PTok),
        g1.isLoop = false → (∀ a, (g2 a).isLoop = true) →
        ((run n g1 ts).bind fun p => run n (g2 p.1) p.2) = some (v, r) → r.length + 1 ≤ ts.length := by
      intro g1 g2 ts v r h1 h2 h
      cases hr : run n g1 ts with
      | none => simp [hr] at h
      | some p =>
        simp only [hr, Option.bind_some] at h
        have a := ih g1 ts p.1 p.2 hr
        have b := ih (g2 p.1) p.2 v r h
        rw [h1] at a; rw [h2] at b
        simp at a b; omega
    intro g ts v r h
    cases g with
    | or => simp only [run] at h; exact two .and .orL ts v r rfl (fun _ => rfl) h
    | and => simp only [run] at h; exact two .not .andL ts v r rfl (fun _ => rfl) h
    | add => simp only [run] at h; exact two .mul .addL ts v r rfl (fun _ => rfl) h
    | mul => simp only [run] at h; exact two .un .mulL ts v r rfl (fun _ => rfl) h
    | orL a =>
      simp only [run] at h
      split at h
      · rename_i ts
        have := two .and (fun b => .orL (pyOr a b)) ts v r rfl (fun _ => rfl) h
        simp [Goal.isLoop]; omega
      · cases h; simp [Goal.isLoop]
    | andL a =>
      simp only [run] at h
      split at h
      · rename_i ts
        have := two .not (fun b => .andL (pyAnd a b)) ts v r rfl (fun _ => rfl) h
        simp [Goal.isLoop]; omega
      · cases h; simp [Goal.isLoop]
    | addL a =>
      simp only [run] at h
      split at h
      · rename_i ts
        have := two .mul (fun b => .addL (a + b)) ts v r rfl (fun _ => rfl) h
        simp [Goal.isLoop]; omega
      · rename_i ts
        have := two .mul (fun b => .addL (a - b)) ts v r rfl (fun _ => rfl) h
        simp [Goal.isLoop]; omega
      · cases h; simp [Goal.isLoop]
    | mulL a =>
      simp only [run] at h
      split at h
      · rename_i ts
        have := two .un (fun b => .mulL (a * b)) ts v r rfl (fun _ => rfl) h
        simp [Goal.isLoop]; omega
      · cases h; simp [Goal.isLoop]
    | cmpL a acc =>
      simp only [run] at h
      split at h
      · rename_i op ts
        have := two .add (fun b => .cmpL b (acc && op.holds a b)) ts v r rfl (fun _ => rfl) h
        simp [Goal.isLoop]; omega
      · cases h; simp [Goal.isLoop]
    | not =>
      simp only [run] at h
      split at h
      · rename_i ts
        obtain ⟨p, hp, he⟩ := Option.map_eq_some_iff.1 h
        have := ih .not ts p.1 p.2 hp
        cases he
        simp [Goal.isLoop] at this ⊢; omega
      · have := ih .cmp ts v r h
        simpa [Goal.isLoop] using this
    | cmp =>
      simp only [run] at h
      cases hr : run n .add ts with
      | none => simp [hr] at h
      | some p =>
        simp only [hr, Option.bind_some] at h
        have a := ih .add ts p.1 p.2 hr
        split at h
        · have b := ih (.cmpL p.1 true) p.2 v r h
          simp [Goal.isLoop] at a b ⊢; omega
        · cases h; simpa [Goal.isLoop] using a
    | un =>
      simp only [run] at h
      split at h
      · rename_i ts
        obtain ⟨p, hp, he⟩ := Option.map_eq_some_iff.1 h
        have := ih .un ts p.1 p.2 hp
        cases he
        simp [Goal.isLoop] at this ⊢; omega
      · rename_i ts
        have := ih .un ts v r h
        simp [Goal.isLoop] at this ⊢; omega
      · have := ih .prim ts v r h
        simpa [Goal.isLoop] using this
    | prim =>
      simp only [run] at h
      split at h
      · cases h; simp [Goal.isLoop]
      · rename_i ts
        cases hr : run n .or ts with
        | none => simp [hr] at h
        | some p =>
          simp only [hr, Option.bind_some] at h
          have a := ih .or ts p.1 p.2 hr
          split at h
          · rename_i ts' he
            cases h
            rw [he] at a
            simp [Goal.isLoop] at a ⊢; omega
          · cases h
      · cases h

/-- With enough fuel the result does not depend on it. -/
theorem run_stable : ∀ (n m : Nat) (g : Goal) (ts : List PTok),
    10 * ts.length + g.rank ≤ n → 10 * ts.length + g.rank ≤ m → run n g ts = run m g ts := by
  intro n
  induction n with
  | zero => intro m g ts h; cases g <;> simp [Goal.rank] at h
  | succ n ih =>
    intro m g ts hn hm
    cases m with
    | zero => cases g <;> simp [Goal.rank] at hm
    | succ m =>
      have two : ∀ (g1 : Goal) (g2 : Int → Goal) (ts : List PTok),
          g1.isLoop = false → (∀ a, (g2 a).isLoop = true) →
          10 * ts.length + g1.rank ≤ n → 10 * ts.length + g1.rank ≤ m →
          ((run n g1 ts).bind fun p => run n (g2 p.1) p.2) =
            ((run m g1 ts).bind fun p => run m (g2 p.1) p.2) := by
        intro g1 g2 ts h1 h2 hn hm
        rw [← ih m g1 ts hn hm]
        cases hr : run n g1 ts with
        | none => rfl
        | some p =>
          have a := run_consumes n g1 ts p.1 p.2 hr
          rw [h1] at a
          have hrk : ∀ g : Goal, g.isLoop = true → g.rank = 1 := by intro g; cases g <;> simp [Goal.isLoop, Goal.rank]
          have := hrk _ (h2 p.1)
          simp at a
          exact ih m (g2 p.1) p.2 (by omega) (by omega)
      cases g with
      | or => simp only [run]; exact two .and .orL ts rfl (fun _ => rfl) (by simp [Goal.rank] at *; omega) (by simp [Goal.rank] at *; omega)
      | and => simp only [run]; exact two .not .andL ts rfl (fun _ => rfl) (by simp [Goal.rank] at *; omega) (by simp [Goal.rank] at *; omega)
      | add => simp only [run]; exact two .mul .addL ts rfl (fun _ => rfl) (by simp [Goal.rank] at *; omega) (by simp [Goal.rank] at *; omega)
      | mul => simp only [run]; exact two .un .mulL ts rfl (fun _ => rfl) (by simp [Goal.rank] at *; omega) (by simp [Goal.rank] at *; omega)
      | orL a =>
        simp only [run]
        split
        · rename_i ts
          exact two .and (fun b => .orL (pyOr a b)) ts rfl (fun _ => rfl) (by simp [Goal.rank] at *; omega) (by simp [Goal.rank] at *; omega)
        · rfl
      | andL a =>
        simp only [run]
        split
        · rename_i ts
          exact two .not (fun b => .andL (pyAnd a b)) ts rfl (fun _ => rfl) (by simp [Goal.rank] at *; omega) (by simp [Goal.rank] at *; omega)
        · rfl
      | addL a =>
        simp only [run]
        split
        · rename_i ts
          exact two .mul (fun b => .addL (a + b)) ts rfl (fun _ => rfl) (by simp [Goal.rank] at *; omega) (by simp [Goal.rank] at *; omega)
        · rename_i ts
          exact two .mul (fun b => .addL (a - b)) ts rfl (fun _ => rfl) (by simp [Goal.rank] at *; omega) (by simp [Goal.rank] at *; omega)
        · rfl
      | mulL a =>
        simp only [run]
        split
        · rename_i ts
          exact two .un (fun b => .mulL (a * b)) ts rfl (fun _ => rfl) (by simp [Goal.rank] at *; omega) (by simp [Goal.rank] at *; omega)
        · rfl
      | cmpL a acc =>
        simp only [run]
        split
        · rename_i op ts
          exact two .add (fun b => .cmpL b (acc && op.holds a b)) ts rfl (fun _ => rfl) (by simp [Goal.rank] at *; omega) (by simp [Goal.rank] at *; omega)
        · rfl
      | not =>
        simp only [run]
        split
        · rename_i ts
          rw [ih m .not ts (by simp [Goal.rank] at *; omega) (by simp [Goal.rank] at *; omega)]
        · exact ih m .cmp ts (by simp [Goal.rank] at *; omega) (by simp [Goal.rank] at *; omega)
      | cmp =>
        simp only [run]
        rw [← ih m .add ts (by simp [Goal.rank] at *; omega) (by simp [Goal.rank] at *; omega)]
        cases hr : run n .add ts with
        | none => rfl
        | some p =>
          have a := run_consumes n .add ts p.1 p.2 hr
          simp only [Option.bind_some]
          split
          · exact ih m (.cmpL p.1 true) p.2 (by simp [Goal.rank, Goal.isLoop] at *; omega)
              (by simp [Goal.rank, Goal.isLoop] at *; omega)
          · rfl
      | un =>
        simp only [run]
        split
        · rename_i ts
          rw [ih m .un ts (by simp [Goal.rank] at *; omega) (by simp [Goal.rank] at *; omega)]
        · rename_i ts
          rw [ih m .un ts (by simp [Goal.rank] at *; omega) (by simp [Goal.rank] at *; omega)]
        · exact ih m .prim ts (by simp [Goal.rank] at *; omega) (by simp [Goal.rank] at *; omega)
      | prim =>
        simp only [run]
        split
        · rfl
        · rename_i ts
          rw [ih m .or ts (by simp [Goal.rank] at *; omega) (by simp [Goal.rank] at *; omega)]
        · rfl

/-! ### Big-step rules -/

/-- Reads successfully, with any sufficiently large fuel. -/
def Runs (g : Goal) (ts : List PTok) (x : Int × List PTok) : Prop := ∃ n0, ∀ n, n0 ≤ n → run n g ts = some x

theorem Runs.evalToks {ts : List PTok} {v : Int} (h : Runs .or ts (v, [])) : evalToks ts = some v := by
  obtain ⟨n0, h⟩ := h
  have := run_stable (10 * ts.length + 10) (max n0 (10 * ts.length + 10)) .or ts
    (by simp [Goal.rank]) (by simp [Goal.rank]; omega)
  unfold Pyclib.evalToks
  rw [this, h _ (Nat.le_max_left _ _)]

theorem Runs.mk1 {g g1 : Goal} {ts ts1 : List PTok} {x : Int × List PTok} (h1 : Runs g1 ts1 x)
    (h : ∀ n, run (n + 1) g ts = run n g1 ts1) : Runs g ts x := by
  obtain ⟨n1, h1⟩ := h1
  refine ⟨n1 + 1, fun n hn => ?_⟩
  obtain ⟨k, rfl⟩ : ∃ k, n = k + 1 := ⟨n - 1, by omega⟩
  rw [h, h1 _ (by omega)]

theorem Runs.mkMap {g g1 : Goal} {ts ts1 r : List PTok} {a : Int} (f : Int → Int)
    (h1 : Runs g1 ts1 (a, r))
    (h : ∀ n, run (n + 1) g ts = (run n g1 ts1).map fun p => (f p.1, p.2)) : Runs g ts (f a, r) := by
  obtain ⟨n1, h1⟩ := h1
  refine ⟨n1 + 1, fun n hn => ?_⟩
  obtain ⟨k, rfl⟩ : ∃ k, n = k + 1 := ⟨n - 1, by omega⟩
  rw [h, h1 _ (by omega)]; rfl

theorem Runs.mk2 {g g1 : Goal} {g2 : Int → Goal} {ts ts1 r : List PTok} {a : Int} {x : Int × List PTok}
    (h1 : Runs g1 ts1 (a, r)) (h2 : Runs (g2 a) r x)
    (h : ∀ n, run (n + 1) g ts = (run n g1 ts1).bind fun p => run n (g2 p.1) p.2) : Runs g ts x := by
  obtain ⟨n1, h1⟩ := h1
  obtain ⟨n2, h2⟩ := h2
  refine ⟨max n1 n2 + 1, fun n hn => ?_⟩
  obtain ⟨k, rfl⟩ : ∃ k, n = k + 1 := ⟨n - 1, by omega⟩
  rw [h, h1 _ (by omega)]
  exact h2 _ (by omega)

theorem Runs.done {g : Goal} {ts : List PTok} {x : Int × List PTok} (h : ∀ n, run (n + 1) g ts = some x) :
    Runs g ts x :=
  ⟨1, fun n hn => by obtain ⟨k, rfl⟩ : ∃ k, n = k + 1 := ⟨n - 1, by omega⟩
                     exact h k⟩

/-- Strength of a token as a continuation of an expression: a token stops every loop of a higher level. -/
def tokLevel : PTok → Nat
  | .arith .mul => 5
  | .arith _ => 4
  | .cmp _ => 3
  | .and => 1
  | .or => 0
  | _ => 9

/-- The rest does not continue an expression of level `k` or more. -/
def Stop (k : Nat) (r : List PTok) : Prop := ∀ t ∈ r.head?, tokLevel t < k ∨ t = .rp

theorem Stop.mono {k k' : Nat} {r : List PTok} (h : Stop k r) (hk : k ≤ k') : Stop k' r :=
  fun t ht => (h t ht).imp (fun h => by omega) (fun h => h)

theorem Stop.nil (k : Nat) : Stop k [] := fun t ht => by simp at ht

theorem Stop.rp (k : Nat) (r : List PTok) : Stop k (.rp :: r) := fun t ht => by simp at ht; exact .inr ht.symm

theorem Stop.cons {k : Nat} {t : PTok} {r : List PTok} (h : tokLevel t < k) : Stop k (t :: r) :=
  fun t' ht => by simp at ht; subst ht; exact .inl h

theorem mulL_stop {a : Int} {r : List PTok} (h : Stop 5 r) : Runs (.mulL a) r (a, r) := by
  apply Runs.done; intro n
  simp only [run]
  split
  · have := h _ rfl; simp [tokLevel] at this
  · rfl

theorem addL_stop {a : Int} {r : List PTok} (h : Stop 4 r) : Runs (.addL a) r (a, r) := by
  apply Runs.done; intro n
  simp only [run]
  split
  · have := h _ rfl; simp [tokLevel] at this
  · have := h _ rfl; simp [tokLevel] at this
  · rfl

theorem cmpL_stop {a : Int} {acc : Bool} {r : List PTok} (h : Stop 2 r) :
    Runs (.cmpL a acc) r (b2i acc, r) := by
  apply Runs.done; intro n
  simp only [run]
  split
  · have := h _ rfl; simp [tokLevel] at this
  · rfl

theorem andL_stop {a : Int} {r : List PTok} (h : Stop 1 r) : Runs (.andL a) r (a, r) := by
  apply Runs.done; intro n
  simp only [run]
  split
  · have := h _ rfl; simp [tokLevel] at this
  · rfl

theorem orL_stop {a : Int} {r : List PTok} (h : Stop 0 r) : Runs (.orL a) r (a, r) := by
  apply Runs.done; intro n
  simp only [run]
  split
  · have := h _ rfl; simp [tokLevel] at this
  · rfl

/-! ### Reading back the tokens of an expression of the fragment -/

/-- Comparison operator in Python. -/
def cmpPy : CCmp → CmpOp
  | .eq => .eq | .lt => .lt | .gt => .gt | .le => .le | .ge => .ge
  | .ne => .eq

section reading
variable (val : Str → Nat) (d : Str → Bool)

/-- Python token of a token of C, after all the textual steps. -/
def tokPy : CTok → PTok
  | .num n => .num n
  | .id w => .num (val w)
  | .defd w _ => .num (if d w then 1 else 0)
  | .bang => .not
  | .and => .and
  | .or => .or
  | .cmp op => .cmp (cmpPy op)
  | .arith op => .arith op
  | .lp => .lp
  | .rp => .rp

/-- Value of an expression as Python computes it. -/
def pyVal : CE → Int
  | .num n => n
  | .id w => val w
  | .defd w _ => ((if d w then 1 else 0 : Nat) : Int)
  | .par e => pyVal e
  | .neg e => b2i (pyVal e == 0)
  | .cmp op a b => b2i ((cmpPy op).holds (pyVal a) (pyVal b))
  | .arith .add a b => pyVal a + pyVal b
  | .arith .sub a b => pyVal a - pyVal b
  | .arith .mul a b => pyVal a * pyVal b
  | .and a b => pyAnd (pyVal a) (pyVal b)
  | .or a b => pyOr (pyVal a) (pyVal b)

/-- Python tokens of an expression. -/
def ptoks (e : CE) : List PTok := e.toks.map (tokPy val d)

/-- First token of an expression other than `!`: no sign and no `not`. -/
theorem prim_first (e : CE) (h : e.level = 7) :
    ∃ t ts, ptoks val d e = t :: ts ∧ (t = .lp ∨ ∃ k, t = .num k) := by
  cases e with
  | num n => exact ⟨_, _, rfl, .inr ⟨_, rfl⟩⟩
  | id w => exact ⟨_, _, rfl, .inr ⟨_, rfl⟩⟩
  | defd w f => exact ⟨_, _, rfl, .inr ⟨_, rfl⟩⟩
  | par e => exact ⟨_, _, rfl, .inl rfl⟩
  | neg e => simp [CE.level] at h
  | cmp op a b => cases op <;> simp [CE.level] at h
  | arith op a b => cases op <;> simp [CE.level] at h
  | and a b => simp [CE.level] at h
  | or a b => simp [CE.level] at h

/-- What reading an expression of the fragment does at each level. -/
structure Reads (e : CE) : Prop where
  prim : 7 ≤ e.level → ∀ r, Runs .prim (ptoks val d e ++ r) (pyVal val d e, r)
  mul : 5 ≤ e.level → e.level ≠ 6 → ∀ r x, Runs (.mulL (pyVal val d e)) r x →
    Runs .mul (ptoks val d e ++ r) x
  add : 4 ≤ e.level → e.level ≠ 6 → ∀ r x, Stop 5 r → Runs (.addL (pyVal val d e)) r x →
    Runs .add (ptoks val d e ++ r) x
  cmp : 2 ≤ e.level → e.level ≠ 6 → ∀ r, Stop 2 r → Runs .cmp (ptoks val d e ++ r) (pyVal val d e, r)
  not : 2 ≤ e.level → ∀ r, Stop 2 r → Runs .not (ptoks val d e ++ r) (pyVal val d e, r)
  and : 1 ≤ e.level → ∀ r x, Stop 2 r → Runs (.andL (pyVal val d e)) r x →
    Runs .and (ptoks val d e ++ r) x
  or : ∀ r x, Stop 1 r → Runs (.orL (pyVal val d e)) r x → Runs .or (ptoks val d e ++ r) x

/-- The first token is a number or a parenthesis. -/
def StartsOperand (ts : List PTok) : Prop := ∃ t us, ts = t :: us ∧ (t = .lp ∨ ∃ k, t = .num k)

theorem StartsOperand.append {ts us : List PTok} (h : StartsOperand ts) : StartsOperand (ts ++ us) := by
  obtain ⟨t, vs, rfl, h⟩ := h; exact ⟨t, vs ++ us, rfl, h⟩

theorem run_not_operand {ts : List PTok} (h : StartsOperand ts) (n : Nat) :
    run (n + 1) .not ts = run n .cmp ts := by
  obtain ⟨t, us, rfl, rfl | ⟨k, rfl⟩⟩ := h <;> rfl

theorem run_un_operand {ts : List PTok} (h : StartsOperand ts) (n : Nat) :
    run (n + 1) .un ts = run n .prim ts := by
  obtain ⟨t, us, rfl, rfl | ⟨k, rfl⟩⟩ := h <;> rfl

/-- Reading at `cmp` level when no comparison follows. -/
theorem cmp_of_add {ts r : List PTok} {a : Int} (h : Runs .add ts (a, r)) (hs : Stop 2 r) :
    Runs .cmp ts (a, r) := by
  obtain ⟨n1, h1⟩ := h
  refine ⟨n1 + 1, fun n hn => ?_⟩
  obtain ⟨k, rfl⟩ : ∃ k, n = k + 1 := ⟨n - 1, by omega⟩
  simp only [run, h1 _ (show n1 ≤ k by omega), Option.bind_some]
  split
  · have := hs _ (by simp [*]; rfl)
    simp [tokLevel] at this
  · rfl

/-- Reading one comparison. -/
theorem cmp_of_add2 {ts us r : List PTok} {a b : Int} {op : CmpOp} (h : Runs .add ts (a, .cmp op :: us))
    (h2 : Runs .add us (b, r)) (hs : Stop 2 r) : Runs .cmp ts (b2i (op.holds a b), r) := by
  have h3 : Runs (.cmpL a true) (.cmp op :: us) (b2i (op.holds a b), r) := by
    refine Runs.mk2 (g2 := fun b => .cmpL b (true && op.holds a b)) h2 ?_ (fun n => by simp [run])
    have := cmpL_stop (a := b) (acc := true && op.holds a b) hs
    simpa using this
  obtain ⟨n1, h1⟩ := h
  obtain ⟨n2, h2⟩ := h3
  refine ⟨max n1 n2 + 1, fun n hn => ?_⟩
  obtain ⟨k, rfl⟩ : ∃ k, n = k + 1 := ⟨n - 1, by omega⟩
  simp only [run, h1 _ (show n1 ≤ k by omega), Option.bind_some]
  exact h2 _ (by omega)

/-- From one level to all the weaker ones. -/
theorem Reads.ofOr {e : CE} (hl : e.level = 0)
    (h : ∀ r x, Stop 1 r → Runs (.orL (pyVal val d e)) r x → Runs .or (ptoks val d e ++ r) x) :
    Reads val d e :=
  ⟨by omega, by omega, by omega, by omega, by omega, by omega, h⟩

theorem Reads.ofAnd {e : CE} (hl : e.level ≤ 1)
    (h : ∀ r x, Stop 2 r → Runs (.andL (pyVal val d e)) r x → Runs .and (ptoks val d e ++ r) x) :
    Reads val d e :=
  ⟨by omega, by omega, by omega, by omega, by omega, fun _ => h,
   fun r x hs hx => Runs.mk2 (h r _ (hs.mono (by omega)) (andL_stop hs)) hx (fun n => by simp [run])⟩

theorem Reads.ofNot {e : CE} (hl : e.level ≤ 3 ∨ e.level = 6)
    (hc : e.level ≠ 6 → ∀ r, Stop 2 r → Runs .cmp (ptoks val d e ++ r) (pyVal val d e, r))
    (h : ∀ r, Stop 2 r → Runs .not (ptoks val d e ++ r) (pyVal val d e, r)) :
    Reads val d e := by
  have ha : ∀ r x, Stop 2 r → Runs (.andL (pyVal val d e)) r x → Runs .and (ptoks val d e ++ r) x :=
    fun r x hs hx => Runs.mk2 (h r hs) hx (fun n => by simp [run])
  exact ⟨by omega, by omega, by omega, fun _ h6 => hc h6, fun _ => h, fun _ => ha,
   fun r x hs hx => Runs.mk2 (ha r _ (hs.mono (by omega)) (andL_stop hs)) hx (fun n => by simp [run])⟩

theorem Reads.ofAdd {e : CE} (hl : e.level ≤ 4) (ho : StartsOperand (ptoks val d e))
    (h : ∀ r x, Stop 5 r → Runs (.addL (pyVal val d e)) r x → Runs .add (ptoks val d e ++ r) x) :
    Reads val d e := by
  have hc : ∀ r, Stop 2 r → Runs .cmp (ptoks val d e ++ r) (pyVal val d e, r) :=
    fun r hs => cmp_of_add (h r _ (hs.mono (by omega)) (addL_stop (hs.mono (by omega)))) hs
  have hn : ∀ r, Stop 2 r → Runs .not (ptoks val d e ++ r) (pyVal val d e, r) :=
    fun r hs => Runs.mk1 (hc r hs) (fun n => run_not_operand ho.append n)
  have ha : ∀ r x, Stop 2 r → Runs (.andL (pyVal val d e)) r x → Runs .and (ptoks val d e ++ r) x :=
    fun r x hs hx => Runs.mk2 (hn r hs) hx (fun n => by simp [run])
  exact ⟨by omega, by omega, fun _ _ => h, fun _ _ => hc, fun _ => hn, fun _ => ha,
   fun r x hs hx => Runs.mk2 (ha r _ (hs.mono (by omega)) (andL_stop hs)) hx (fun n => by simp [run])⟩

theorem Reads.ofMul {e : CE} (hl : e.level ≤ 5) (ho : StartsOperand (ptoks val d e))
    (h : ∀ r x, Runs (.mulL (pyVal val d e)) r x → Runs .mul (ptoks val d e ++ r) x) :
    Reads val d e := by
  have hm : ∀ r x, Stop 5 r → Runs (.addL (pyVal val d e)) r x → Runs .add (ptoks val d e ++ r) x :=
    fun r x hs hx => Runs.mk2 (h r _ (mulL_stop hs)) hx (fun n => by simp [run])
  have hc : ∀ r, Stop 2 r → Runs .cmp (ptoks val d e ++ r) (pyVal val d e, r) :=
    fun r hs => cmp_of_add (hm r _ (hs.mono (by omega)) (addL_stop (hs.mono (by omega)))) hs
  have hn : ∀ r, Stop 2 r → Runs .not (ptoks val d e ++ r) (pyVal val d e, r) :=
    fun r hs => Runs.mk1 (hc r hs) (fun n => run_not_operand ho.append n)
  have ha : ∀ r x, Stop 2 r → Runs (.andL (pyVal val d e)) r x → Runs .and (ptoks val d e ++ r) x :=
    fun r x hs hx => Runs.mk2 (hn r hs) hx (fun n => by simp [run])
  exact ⟨by omega, fun _ _ => h, fun _ _ => hm, fun _ _ => hc, fun _ => hn, fun _ => ha,
   fun r x hs hx => Runs.mk2 (ha r _ (hs.mono (by omega)) (andL_stop hs)) hx (fun n => by simp [run])⟩

theorem Reads.ofPrim {e : CE} (ho : StartsOperand (ptoks val d e))
    (h : ∀ r, Runs .prim (ptoks val d e ++ r) (pyVal val d e, r)) : Reads val d e := by
  have hu : ∀ r, Runs .un (ptoks val d e ++ r) (pyVal val d e, r) :=
    fun r => Runs.mk1 (h r) (fun n => run_un_operand ho.append n)
  have hm0 : ∀ r x, Runs (.mulL (pyVal val d e)) r x → Runs .mul (ptoks val d e ++ r) x :=
    fun r x hx => Runs.mk2 (hu r) hx (fun n => by simp [run])
  have hm : ∀ r x, Stop 5 r → Runs (.addL (pyVal val d e)) r x → Runs .add (ptoks val d e ++ r) x :=
    fun r x hs hx => Runs.mk2 (hm0 r _ (mulL_stop hs)) hx (fun n => by simp [run])
  have hc : ∀ r, Stop 2 r → Runs .cmp (ptoks val d e ++ r) (pyVal val d e, r) :=
    fun r hs => cmp_of_add (hm r _ (hs.mono (by omega)) (addL_stop (hs.mono (by omega)))) hs
  have hn : ∀ r, Stop 2 r → Runs .not (ptoks val d e ++ r) (pyVal val d e, r) :=
    fun r hs => Runs.mk1 (hc r hs) (fun n => run_not_operand ho.append n)
  have ha : ∀ r x, Stop 2 r → Runs (.andL (pyVal val d e)) r x → Runs .and (ptoks val d e ++ r) x :=
    fun r x hs hx => Runs.mk2 (hn r hs) hx (fun n => by simp [run])
  exact ⟨fun _ => h, fun _ _ => hm0, fun _ _ => hm, fun _ _ => hc, fun _ => hn, fun _ => ha,
   fun r x hs hx => Runs.mk2 (ha r _ (hs.mono (by omega)) (andL_stop hs)) hx (fun n => by simp [run])⟩

/-- An expression of level at least 4 other than `!` starts with an operand. -/
theorem startsOperand (e : CE) (hf : e.Frag) (h : 4 ≤ e.level) (h6 : e.level ≠ 6) (hg : e.Grammar) :
    StartsOperand (ptoks val d e) := by
  induction e with
  | num n => exact ⟨_, _, rfl, .inr ⟨_, rfl⟩⟩
  | id w => exact ⟨_, _, rfl, .inr ⟨_, rfl⟩⟩
  | defd w f => exact ⟨_, _, rfl, .inr ⟨_, rfl⟩⟩
  | par e => exact ⟨_, _, rfl, .inl rfl⟩
  | neg e => simp [CE.level] at h6
  | cmp op a b => cases op <;> simp [CE.level] at h
  | arith op a b iha ihb =>
    have : 4 ≤ (CE.arith op a b).level := by cases op <;> simp [CE.level]
    have h1 := hg.1
    have := iha hf.2.2.2.2.1 (by omega) hf.1 hg.2.2.1
    have e : ptoks val d (.arith op a b) = ptoks val d a ++ (.arith op :: ptoks val d b) := by
      simp [ptoks, CE.toks, tokPy]
    rw [e]; exact this.append
  | and a b => simp [CE.level] at h
  | or a b => simp [CE.level] at h

theorem reads (e : CE) (hf : e.Frag) (hg : e.Grammar) : Reads val d e := by
  induction e with
  | num n => exact Reads.ofPrim val d ⟨_, _, rfl, .inr ⟨_, rfl⟩⟩ (fun r => Runs.done (fun n => rfl))
  | id w => exact Reads.ofPrim val d ⟨_, _, rfl, .inr ⟨_, rfl⟩⟩ (fun r => Runs.done (fun n => rfl))
  | defd w f => exact Reads.ofPrim val d ⟨_, _, rfl, .inr ⟨_, rfl⟩⟩ (fun r => Runs.done (fun n => rfl))
  | par e ih =>
    refine Reads.ofPrim val d ⟨_, _, rfl, .inl rfl⟩ (fun r => ?_)
    have h := (ih hf hg).or (.rp :: r) (pyVal val d e, .rp :: r) (Stop.rp _ _) (orL_stop (Stop.rp _ _))
    have e' : ptoks val d (.par e) ++ r = .lp :: (ptoks val d e ++ .rp :: r) := by
      simp [ptoks, CE.toks, tokPy]
    rw [e']
    obtain ⟨n1, h1⟩ := h
    refine ⟨n1 + 1, fun n hn => ?_⟩
    obtain ⟨k, rfl⟩ : ∃ k, n = k + 1 := ⟨n - 1, by omega⟩
    simp only [run, h1 _ (show n1 ≤ k by omega), Option.bind_some]
    rfl
  | neg e ih =>
    have h := (ih hf hg.2).not (by have := hg.1; omega)
    refine Reads.ofNot val d (.inr rfl) (by simp [CE.level]) (fun r hs => ?_)
    exact Runs.mkMap (fun v => b2i (v == 0)) (h r hs) (fun n => by rfl)
  | cmp op a b iha ihb =>
    obtain ⟨hne, la, lb, na, nb, _, _, fa, fb⟩ := hf
    obtain ⟨_, _, ga, gb⟩ := hg
    have e' : ∀ r, ptoks val d (.cmp op a b) ++ r =
        ptoks val d a ++ (.cmp (cmpPy op) :: (ptoks val d b ++ r)) := by
      intro r; simp [ptoks, CE.toks, tokPy]
    have hc : ∀ r, Stop 2 r → Runs .cmp (ptoks val d (.cmp op a b) ++ r) (pyVal val d (.cmp op a b), r) := by
      intro r hs
      rw [e']
      have st : ∀ k us, 4 ≤ k → Stop k (PTok.cmp (cmpPy op) :: us) :=
        fun k us hk => Stop.cons (by simp [tokLevel]; omega)
      refine cmp_of_add2 ((iha fa ga).add la na _ _ (st 5 _ (by omega)) (addL_stop (st 4 _ (by omega))))
        ((ihb fb gb).add lb nb r _ (hs.mono (by omega)) (addL_stop (hs.mono (by omega)))) hs
    have ho : StartsOperand (ptoks val d (.cmp op a b)) := by
      have := (startsOperand val d a fa la na ga).append (us := .cmp (cmpPy op) :: ptoks val d b)
      have e2 := e' []
      simp at e2
      rw [e2]; exact this
    refine Reads.ofNot val d (.inl (by cases op <;> simp [CE.level])) (fun _ => hc) (fun r hs => ?_)
    exact Runs.mk1 (hc r hs) (fun n => run_not_operand ho.append n)
  | arith op a b iha ihb =>
    have hlev : 4 ≤ (CE.arith op a b).level := by cases op <;> simp [CE.level]
    have hlev6 : (CE.arith op a b).level ≠ 6 := by cases op <;> simp [CE.level]
    have ho := startsOperand val d (.arith op a b) hf hlev hlev6 hg
    obtain ⟨na, nb, _, _, fa, fb⟩ := hf
    obtain ⟨h1, h2, ga, gb⟩ := hg
    have e' : ∀ r, ptoks val d (.arith op a b) ++ r =
        ptoks val d a ++ (.arith op :: (ptoks val d b ++ r)) := by
      intro r; simp [ptoks, CE.toks, tokPy]
    cases op with
    | mul =>
      have h1 : 5 ≤ a.level := h1
      have h2 : 5 < b.level := h2
      refine Reads.ofMul val d (by simp [CE.level]) ho (fun r x hx => ?_)
      rw [e']
      apply (iha fa ga).mul h1 na
      have hb := (ihb fb gb).prim (by omega) r
      have hso := startsOperand val d b fb (by omega) nb gb
      have hu : Runs .un (ptoks val d b ++ r) (pyVal val d b, r) :=
        Runs.mk1 hb (fun n => run_un_operand hso.append n)
      exact Runs.mk2 (g2 := fun v => .mulL (pyVal val d a * v)) hu hx (fun n => by simp [run])
    | add =>
      have h1 : 4 ≤ a.level := h1
      have h2 : 4 < b.level := h2
      refine Reads.ofAdd val d (by simp [CE.level]) ho (fun r x hs hx => ?_)
      rw [e']
      apply (iha fa ga).add h1 na _ _ (Stop.cons (by simp [tokLevel]))
      exact Runs.mk2 (g2 := fun v => .addL (pyVal val d a + v))
        ((ihb fb gb).mul (by omega) nb r _ (mulL_stop hs)) hx (fun n => by simp [run])
    | sub =>
      have h1 : 4 ≤ a.level := h1
      have h2 : 4 < b.level := h2
      refine Reads.ofAdd val d (by simp [CE.level]) ho (fun r x hs hx => ?_)
      rw [e']
      apply (iha fa ga).add h1 na _ _ (Stop.cons (by simp [tokLevel]))
      exact Runs.mk2 (g2 := fun v => .addL (pyVal val d a - v))
        ((ihb fb gb).mul (by omega) nb r _ (mulL_stop hs)) hx (fun n => by simp [run])
  | and a b iha ihb =>
    obtain ⟨h1, h2, ga, gb⟩ := hg
    have e' : ∀ r, ptoks val d (.and a b) ++ r = ptoks val d a ++ (.and :: (ptoks val d b ++ r)) := by
      intro r; simp [ptoks, CE.toks, tokPy]
    refine Reads.ofAnd val d (by simp [CE.level]) (fun r x hs hx => ?_)
    rw [e']
    apply (iha hf.1 ga).and h1 _ _ (Stop.cons (by simp [tokLevel]))
    exact Runs.mk2 (g2 := fun v => .andL (pyAnd (pyVal val d a) v)) ((ihb hf.2 gb).not h2 r hs) hx
      (fun n => by simp [run])
  | or a b iha ihb =>
    obtain ⟨h2, ga, gb⟩ := hg
    have e' : ∀ r, ptoks val d (.or a b) ++ r = ptoks val d a ++ (.or :: (ptoks val d b ++ r)) := by
      intro r; simp [ptoks, CE.toks, tokPy]
    refine Reads.ofOr val d (by simp [CE.level]) (fun r x hs hx => ?_)
    rw [e']
    apply (iha hf.1 ga).or _ _ (Stop.cons (by simp [tokLevel]))
    exact Runs.mk2 (g2 := fun v => .orL (pyOr (pyVal val d a) v))
      ((ihb hf.2 gb).and h2 r _ (hs.mono (by omega)) (andL_stop hs)) hx (fun n => by simp [run])

theorem evalToks_ptoks (e : CE) (hf : e.Frag) (hg : e.Grammar) :
    evalToks (ptoks val d e) = some (pyVal val d e) := by
  have := (reads val d e hf hg).or [] (pyVal val d e, []) (Stop.nil _) (orL_stop (Stop.nil _))
  simp at this
  exact this.evalToks

/-! ### Python's value and C's value -/

theorem pyVal_spec (e : CE) (hf : e.Frag) :
    (pyVal val d e = 0 ↔ e.value val d = 0) ∧ (e.exact = true → pyVal val d e = e.value val d) ∧
    (e.isBool = true → pyVal val d e = e.value val d ∧ (e.value val d = 0 ∨ e.value val d = 1)) := by
  induction e with
  | num n => simp [pyVal, CE.value, CE.isBool]
  | id w => simp [pyVal, CE.value, CE.isBool]
  | defd w f => cases h : d w <;> simp [pyVal, CE.value, h]
  | par e ih => simpa [pyVal, CE.value, CE.exact, CE.isBool] using ih hf
  | neg e ih =>
    obtain ⟨h1, _, _⟩ := ih hf
    by_cases h : pyVal val d e = 0
    · simp [pyVal, CE.value, b2i, h, h1.1 h]
    · have h' : e.value val d ≠ 0 := fun h' => h (h1.2 h')
      simp [pyVal, CE.value, b2i, h, h']
  | cmp op a b iha ihb =>
    obtain ⟨hne, _, _, _, _, xa, xb, fa, fb⟩ := hf
    have ha := (iha fa).2.1 xa
    have hb := (ihb fb).2.1 xb
    have : (cmpPy op).holds (pyVal val d a) (pyVal val d b) = op.holds (a.value val d) (b.value val d) := by
      rw [ha, hb]
      cases op <;> first | rfl | exact (hne rfl).elim
    cases h : op.holds (a.value val d) (b.value val d) <;> simp [pyVal, CE.value, this, b2i, h]
  | arith op a b iha ihb =>
    obtain ⟨_, _, xa, xb, fa, fb⟩ := hf
    have ha := (iha fa).2.1 xa
    have hb := (ihb fb).2.1 xb
    cases op <;> simp [pyVal, CE.value, ha, hb, CE.isBool]
  | and a b iha ihb =>
    obtain ⟨a1, a2, a3⟩ := iha hf.1
    obtain ⟨b1, b2, b3⟩ := ihb hf.2
    have key : pyVal val d (.and a b) = 0 ↔ (CE.and a b).value val d = 0 := by
      simp only [pyVal, pyAnd, CE.value]
      by_cases h : pyVal val d a = 0
      · simp [h, a1.1 h]
      · have h' : a.value val d ≠ 0 := fun h' => h (a1.2 h')
        simp [h, h', b1]
    have exact' : (a.isBool && b.isBool) = true → pyVal val d (.and a b) = (CE.and a b).value val d ∧
        ((CE.and a b).value val d = 0 ∨ (CE.and a b).value val d = 1) := by
      intro h
      simp only [Bool.and_eq_true] at h
      obtain ⟨e1, c1⟩ := a3 h.1
      obtain ⟨e2, c2⟩ := b3 h.2
      simp only [pyVal, pyAnd, CE.value, e1, e2]
      rcases c1 with c1 | c1 <;> rcases c2 with c2 | c2 <;> simp [c1, c2]
    exact ⟨key, fun h => (exact' h).1, fun h => exact' h⟩
  | or a b iha ihb =>
    obtain ⟨a1, a2, a3⟩ := iha hf.1
    obtain ⟨b1, b2, b3⟩ := ihb hf.2
    have key : pyVal val d (.or a b) = 0 ↔ (CE.or a b).value val d = 0 := by
      simp only [pyVal, pyOr, CE.value]
      by_cases h : pyVal val d a = 0
      · simp [h, a1.1 h, b1]
      · have h' : a.value val d ≠ 0 := fun h' => h (a1.2 h')
        simp [h, h']
    have exact' : (a.isBool && b.isBool) = true → pyVal val d (.or a b) = (CE.or a b).value val d ∧
        ((CE.or a b).value val d = 0 ∨ (CE.or a b).value val d = 1) := by
      intro h
      simp only [Bool.and_eq_true] at h
      obtain ⟨e1, c1⟩ := a3 h.1
      obtain ⟨e2, c2⟩ := b3 h.2
      simp only [pyVal, pyOr, CE.value, e1, e2]
      rcases c1 with c1 | c1 <;> rcases c2 with c2 | c2 <;> simp [c1, c2]
    exact ⟨key, fun h => (exact' h).1, fun h => exact' h⟩

end reading

end Pyclib
