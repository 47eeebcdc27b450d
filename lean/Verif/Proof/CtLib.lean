import Verif.Proof.CtFinished
import Verif.Props.Wrap
import Verif.Spec.Library
/-! Lookups in a library over the ctypes backend. -/
namespace Pyclib
open Spec

/-! ### One bound on the recursion for everything -/

/-- `F` does not depend on its first argument from some point on. -/
def Steady {α : Type} (N : Nat) (F : Nat → CtState → α) : Prop := ∀ n m, N ≤ n → N ≤ m → ∀ st, F n st = F m st

theorem Steady.mono {α : Type} {N M : Nat} {F : Nat → CtState → α} (h : Steady N F) (hm : N ≤ M) : Steady M F :=
  fun n m h1 h2 => h n m (Nat.le_trans hm h1) (Nat.le_trans hm h2)

/-- Finitely many bounds have a common one. -/
theorem common {β : Type} (P : β → Nat → Prop) (hP : ∀ x N M, P x N → N ≤ M → P x M) :
    ∀ (l : List β), (∀ x ∈ l, ∃ N, P x N) → ∃ N, ∀ x ∈ l, P x N
  | [], _ => ⟨0, by simp⟩
  | x :: l, h => by
    obtain ⟨N, h1⟩ := h x (by simp)
    obtain ⟨M, h2⟩ := common P hP l (fun y hy => h y (by simp [hy]))
    refine ⟨max N M, fun y hy => ?_⟩
    rcases List.mem_cons.1 hy with rfl | hy
    · exact hP _ _ _ h1 (by omega)
    · exact hP _ _ _ (h2 y hy) (by omega)

section
variable {e : CtEnv}

theorem steady_type (ht : TagsOk e) (hmap : MapMatch e.tm) (hf : ∀ m ∈ allMembers e, FiniteParams e m.type) (t : CType)
    (h : FiniteParams e t) : ∃ N, Steady N (fun n st => getType e n st t) ∧
      ∀ n st, N ≤ n → (getType e n st t).1 ≠ .error .recursionError := by
  obtain ⟨N, hN⟩ := C49_terminates ht hmap hf t h
  exact ⟨N, fun n m h1 h2 st => (hN n st h1).2.trans (hN m st h2).2.symm, fun n st hn => (hN n st hn).1⟩

theorem steady_args (ht : TagsOk e) (hmap : MapMatch e.tm) (hf : ∀ m ∈ allMembers e, FiniteParams e m.type) (ps : List Param)
    (h : ∀ p ∈ ps, FiniteParams e p.2.1) : ∃ N, Steady N (fun n st => argClasses (getType e n) st ps) := by
  induction ps with
  | nil => exact ⟨0, fun n m _ _ _ => rfl⟩
  | cons p ps ih =>
    obtain ⟨N, h1, _⟩ := steady_type ht hmap hf p.2.1 (h p (by simp))
    obtain ⟨M, h2⟩ := ih (fun q hq => h q (by simp [hq]))
    refine ⟨max N M, fun n m hn hm st => ?_⟩
    simp only [argClasses]
    rw [show getType e n st p.2.1 = getType e m st p.2.1 from h1 n m (by omega) (by omega) st]
    cases hc : getType e m st p.2.1 with
    | mk r st1 =>
      cases r with
      | error x => rfl
      | ok c => simp only; rw [show argClasses (getType e n) st1 ps = argClasses (getType e m) st1 ps from h2 n m (by omega) (by omega) st1]

theorem steady_init (ht : TagsOk e) (hmap : MapMatch e.tm) (hf : ∀ m ∈ allMembers e, FiniteParams e m.type) (r : CType) (ps : List Param)
    (hr : FiniteParams e r) (h : ∀ p ∈ ps.filter (fun p => !isVoidParam p), FiniteParams e p.2.1) (lock : Bool) :
    ∃ N, Steady N (fun n st => initFunc e n st r ps lock) := by
  obtain ⟨N, h1, _⟩ := steady_type ht hmap hf r hr
  obtain ⟨M, h2⟩ := steady_args ht hmap hf _ h
  refine ⟨max N M, fun n m hn hm st => ?_⟩
  simp only [initFunc]
  split
  · rfl
  · rw [show getType e n st r = getType e m st r from h1 n m (by omega) (by omega) st]
    cases hc : getType e m st r with
    | mk r st1 =>
      cases r with
      | error x => rfl
      | ok c => simp only; rw [show argClasses (getType e n) st1 _ = argClasses (getType e m) st1 _ from h2 n m (by omega) (by omega) st1]

theorem steady_members (ht : TagsOk e) (hmap : MapMatch e.tm) (hf : ∀ m ∈ allMembers e, FiniteParams e m.type) (ms : List (Str × Member))
    (h : ∀ p ∈ ms, FiniteParams e p.2.type) : ∃ N, Steady N (fun n st => memberClasses (getType e n) st ms) ∧
      ∀ n st, N ≤ n → (memberClasses (getType e n) st ms).1 ≠ .error .recursionError := by
  induction ms with
  | nil => exact ⟨0, fun n m _ _ _ => rfl, by simp [memberClasses]⟩
  | cons p ms ih =>
    obtain ⟨x, p⟩ := p
    obtain ⟨N, h1, h1'⟩ := steady_type ht hmap hf p.type (h (x, p) (by simp))
    obtain ⟨M, h2, h2'⟩ := ih (fun q hq => h q (by simp [hq]))
    refine ⟨max N M, fun n m hn hm st => ?_, fun n st hn => ?_⟩
    · simp only [memberClasses]
      rw [show getType e n st p.type = getType e m st p.type from h1 n m (by omega) (by omega) st]
      cases hc : getType e m st p.type with
      | mk r st1 =>
        cases r with
        | error x => rfl
        | ok c => simp only; rw [show memberClasses (getType e n) st1 ms = memberClasses (getType e m) st1 ms from h2 n m (by omega) (by omega) st1]
    · simp only [memberClasses]
      have a := h1' n st (by omega)
      cases hc : getType e n st p.type with
      | mk r st1 =>
        rw [hc] at a
        cases r with
        | error x => simpa using a
        | ok c =>
          simp only
          have b := h2' n st1 (by omega)
          cases hc : memberClasses (getType e n) st1 ms with
          | mk r st2 =>
            rw [hc] at b
            cases r with
            | error x => simpa using b
            | ok c => simp

theorem steady_struct (ht : TagsOk e) (hmap : MapMatch e.tm) (hf : ∀ m ∈ allMembers e, FiniteParams e m.type) (u : Bool) (tag : Str)
    (hd : dhas (e.defs (compKind u)) tag = true) : ∃ N, Steady N (fun n st => getStruct e (getType e n) st u tag) ∧
      ∀ n st, N ≤ n → (getStruct e (getType e n) st u tag).1 ≠ .error .recursionError := by
  cases hdd : dget (e.defs (compKind u)) tag with
  | none => unfold dhas at hd; rw [hdd] at hd; cases hd
  | some d =>
    cases d with
    | compound ms pack =>
      obtain ⟨N, h1, h2⟩ := steady_members ht hmap hf ((nameMembers [] [] ms).1.zip ms) (fun p hp => by
        apply hf
        exact allMembers_iff.2 ⟨u, tag, ms, pack, hdd, (List.of_mem_zip hp).2⟩)
      refine ⟨N, fun n m hn hm st => ?_, fun n st hn => ?_⟩
      · simp only [getStruct, resolveAlias, hd, hdd, if_true]
        cases hs : dget st.structs tag with
        | some id => rfl
        | none => simp only; rw [show ∀ st, memberClasses (getType e n) st _ = memberClasses (getType e m) st _ from h1 n m hn hm]
      · simp only [getStruct, resolveAlias, hd, hdd, if_true]
        cases hs : dget st.structs tag with
        | some id => simp
        | none =>
          simp only
          have b := h2 n { st with structs := dset st.structs tag st.classes.length, classes := st.classes ++
              [⟨u, tag, pack, (nameMembers [] [] ms).2, none⟩] } hn
          cases hc : memberClasses (getType e n) { st with structs := dset st.structs tag st.classes.length, classes := st.classes ++
              [⟨u, tag, pack, (nameMembers [] [] ms).2, none⟩] } ((nameMembers [] [] ms).1.zip ms) with
          | mk r st2 =>
            rw [hc] at b
            cases r with
            | error x => simpa using b
            | ok c =>
              simp only
              have hck : checkFields (nameMembers [] [] ms).2 c ≠ .error .recursionError := by
                unfold checkFields; split
                · simp
                · split <;> simp
              cases hcf : checkFields (nameMembers [] [] ms).2 c with
              | error x => rw [hcf] at hck; simpa using hck
              | ok _ => simp
    | _ =>
      refine ⟨0, fun n m _ _ st => ?_, fun n st _ => ?_⟩
      · simp only [getStruct, resolveAlias, hd, hdd, if_true]
      · simp only [getStruct, resolveAlias, hd, hdd, if_true]
        split <;> simp

end

/-! ### The table of functions -/

/-- Number of the result type of a function. -/
def fnAt : Nat → Dict Str DefVal → Str → Option Nat
  | _, [], _ => none
  | k, (g, .func (.func _ ps _)) :: d, f => if g = f then some k else fnAt (k + 1 + ps.length) d f
  | k, (g, _) :: d, f => if g = f then none else fnAt k d f

/-- What `fnAt` and `numFns` say about an entry. -/
theorem fnAt_ok (nums : List CType) (f : Str) (r : CType) (ps : List Param) (q : List Qual) : ∀ (d : Dict Str DefVal) (b : Nat) (ts : List CType),
    fnTypes d <+: ts.drop b → dget d f = some (.func (.func r ps q)) →
    ∃ k, fnAt b d f = some k ∧ b ≤ k ∧ (r :: ps.map (·.2.1)) <+: ts.drop k ∧
      dget (numFns nums b d) f = some (.func (.func (nums[k]?.getD r) (ps.zipWith (fun p t => (p.1, t, p.2.2)) (nums.drop (k + 1))) q))
  | [], _, _, _, h => by simp at h
  | (g, v) :: d, b, ts, hp, h => by
    by_cases hv : ∃ r' ps' q', v = .func (.func r' ps' q')
    · obtain ⟨r', ps', q', rfl⟩ := hv
      simp only [fnTypes] at hp
      simp only [fnAt, numFns, dget]
      by_cases hg : g = f
      · simp only [dget, hg, if_true, Option.some.injEq, DefVal.func.injEq, HType.func.injEq] at h
        obtain ⟨rfl, rfl, rfl⟩ := h
        refine ⟨b, by simp [hg], Nat.le_refl _, ?_, by simp [hg]⟩
        refine List.IsPrefix.trans ?_ hp
        exact ⟨fnTypes d, by simp⟩
      · simp only [dget, hg, if_false] at h ⊢
        obtain ⟨k, h1, h2, h3, h4⟩ := fnAt_ok nums f r ps q d (b + 1 + ps'.length) ts (by
          obtain ⟨x, hx⟩ := hp
          refine ⟨x, ?_⟩
          have := congrArg (List.drop (1 + ps'.length)) hx
          rw [List.drop_drop, ← Nat.add_assoc] at this
          rw [← this, Nat.add_comm 1, List.cons_append, List.append_assoc, List.drop_succ_cons, List.drop_append_of_le_length (by simp)]
          simp) h
        exact ⟨k, h1, by omega, h3, h4⟩
    · have e1 : fnTypes ((g, v) :: d) = fnTypes d := by
        rw [fnTypes]
        intro f1 r1 ps1 q1 h1; cases h1; exact hv ⟨_, _, _, rfl⟩
      have hg : g ≠ f := by
        rintro rfl
        simp only [dget, if_true, Option.some.injEq] at h
        exact hv ⟨_, _, _, h⟩
      have e2 : fnAt b ((g, v) :: d) f = fnAt b d f := by
        rw [fnAt, if_neg hg]
        intro r1 ps1 q1 h1; exact hv ⟨_, _, _, h1⟩
      have e3 : numFns nums b ((g, v) :: d) = (g, v) :: numFns nums b d := by
        rw [numFns]
        intro r ps q f1 h1; cases h1; exact hv ⟨_, _, _, rfl⟩
      simp only [dget, hg, if_false] at h
      rw [e1] at hp
      rw [e2, e3]
      simp only [dget, hg, if_false]
      exact fnAt_ok nums f r ps q d b ts hp h

theorem numFns_has (nums : List CType) (f : Str) : ∀ (d : Dict Str DefVal) (b : Nat), dhas (numFns nums b d) f = dhas d f
  | [], _ => rfl
  | (g, v) :: d, b => by
    by_cases hv : ∃ r' ps' q', v = .func (.func r' ps' q')
    · obtain ⟨r', ps', q', rfl⟩ := hv
      have := numFns_has nums f d (b + 1 + ps'.length)
      simp only [numFns, dhas, dget] at this ⊢
      split <;> simp [this]
    · have e3 : numFns nums b ((g, v) :: d) = (g, v) :: numFns nums b d := by
        rw [numFns]
        intro r ps q f1 h1; cases h1; exact hv ⟨_, _, _, rfl⟩
      have := numFns_has nums f d b
      rw [e3]
      simp only [dhas, dget] at this ⊢
      split <;> simp [this]

theorem fnAt_base {f : Str} : ∀ {d : Dict Str DefVal} {b k : Nat}, fnAt b d f = some k → b ≤ k
  | [], _, _, h => by simp [fnAt] at h
  | (g, v) :: d, b, k, h => by
    by_cases hv : ∃ r' ps' q', v = .func (.func r' ps' q')
    · obtain ⟨r0, ps0, q0, rfl⟩ := hv
      simp only [fnAt] at h
      split at h
      · simp at h; omega
      · have := fnAt_base h; omega
    · rw [fnAt] at h
      · split at h
        · simp at h
        · exact fnAt_base h
      · intro r1 ps1 q1 h1; exact hv ⟨_, _, _, h1⟩

/-- Different functions have different numbers. -/
theorem fnAt_disjoint {f f' : Str} (hne : f ≠ f') {r r' : CType} {ps ps' : List Param} {q q' : List Qual} : ∀ {d : Dict Str DefVal} {b k k' : Nat},
    fnAt b d f = some k → fnAt b d f' = some k' → dget d f = some (.func (.func r ps q)) → dget d f' = some (.func (.func r' ps' q')) →
    k + ps.length < k' ∨ k' + ps'.length < k
  | [], _, _, _, h, _, _, _ => by simp [fnAt] at h
  | (g, v) :: d, b, k, k', h, h', hd, hd' => by
    by_cases hv : ∃ r' ps' q', v = .func (.func r' ps' q')
    · obtain ⟨r0, ps0, q0, rfl⟩ := hv
      simp only [fnAt, dget] at h h' hd hd'
      by_cases hg : g = f
      · subst hg
        simp only [if_true, Option.some.injEq, DefVal.func.injEq, HType.func.injEq] at h hd
        obtain ⟨rfl, rfl, rfl⟩ := hd
        simp only [hne, if_false] at h'
        have := fnAt_base h'
        omega
      · by_cases hg' : g = f'
        · subst hg'
          simp only [if_true, Option.some.injEq, DefVal.func.injEq, HType.func.injEq] at h' hd'
          obtain ⟨rfl, rfl, rfl⟩ := hd'
          simp only [hg, if_false] at h
          have := fnAt_base h
          omega
        · simp only [hg, hg', if_false] at h h' hd hd'
          exact fnAt_disjoint hne h h' hd hd'
    · have e2 : ∀ x, fnAt b ((g, v) :: d) x = if g = x then none else fnAt b d x := by
        intro x
        rw [fnAt]
        intro r ps q h1; exact hv ⟨_, _, _, h1⟩
      rw [e2] at h h'
      simp only [dget] at hd hd'
      split at h
      · simp at h
      · split at h'
        · simp at h'
        · rename_i a b
          simp only [a, b, if_false] at hd hd'
          exact fnAt_disjoint hne h h' hd hd'

end Pyclib
