import Verif.Proof.CtypesTotal
/-
More fuel does not change the result of `getType`.
-/
namespace Pyclib
open Spec

/-- `rec'` agrees with `rec` whenever `rec` does not run out of fuel. -/
def Agrees (rec rec' : CtState → CType → Except PyErr Cls × CtState) : Prop :=
  ∀ st t, (rec st t).1 ≠ .error .recursionError → rec' st t = rec st t

section
variable {rec rec' : CtState → CType → Except PyErr Cls × CtState} {e : CtEnv}

theorem agrees_args (h : Agrees rec rec') (ps : List Param) : ∀ st, (argClasses rec st ps).1 ≠ .error .recursionError →
    argClasses rec' st ps = argClasses rec st ps := by
  induction ps with
  | nil => intro st _; rfl
  | cons p ps ih =>
    intro st hn
    simp only [argClasses] at hn ⊢
    cases hc : rec st p.2.1 with
    | mk r st1 =>
      rw [hc] at hn
      have h1 : rec' st p.2.1 = (r, st1) := by
        rw [h st p.2.1 ?_, hc]
        rw [hc]
        cases r with
        | error x => simpa using hn
        | ok c => simp
      rw [h1]
      cases r with
      | error x => rfl
      | ok c =>
        simp only at hn ⊢
        have h2 := ih st1 (by
          intro hx
          cases ha : argClasses rec st1 ps with
          | mk r2 st2 =>
            rw [ha] at hx hn
            cases r2 with
            | error x => exact hn (by simpa using hx)
            | ok cs => cases hx)
        rw [h2]

theorem agrees_members (h : Agrees rec rec') (ms : List (Str × Member)) :
    ∀ st, (memberClasses rec st ms).1 ≠ .error .recursionError → memberClasses rec' st ms = memberClasses rec st ms := by
  induction ms with
  | nil => intro st _; rfl
  | cons x ms ih =>
    obtain ⟨n, m⟩ := x
    intro st hn
    simp only [memberClasses] at hn ⊢
    cases hc : rec st m.type with
    | mk r st1 =>
      rw [hc] at hn
      have h1 : rec' st m.type = (r, st1) := by
        rw [h st m.type ?_, hc]
        rw [hc]
        cases r with
        | error x => simpa using hn
        | ok c => simp
      rw [h1]
      cases r with
      | error x => rfl
      | ok c =>
        simp only at hn ⊢
        have h2 := ih st1 (by
          intro hx
          cases ha : memberClasses rec st1 ms with
          | mk r2 st2 =>
            rw [ha] at hx hn
            cases r2 with
            | error x => exact hn (by simpa using hx)
            | ok cs => cases hx)
        rw [h2]

theorem agrees_apply (h : Agrees rec rec') (w : Bool) (n : Nat) : ∀ st c ms,
    (applyMods w rec n st c ms).1 ≠ .error .recursionError → applyMods w rec' n st c ms = applyMods w rec n st c ms := by
  induction n with
  | zero =>
    intro st c ms hn
    cases ms with
    | nil => simp only [applyMods]
    | cons m ms => simp [applyMods] at hn
  | succ n ih =>
    intro st c ms hn
    cases ms with
    | nil => simp only [applyMods]
    | cons m ms =>
      cases m with
      | sym s =>
        cases s with
        | nil => simp only [applyMods]
        | cons x s => simp only [applyMods] at hn ⊢; exact ih _ _ _ hn
      | arr d =>
        simp only [applyMods] at hn ⊢
        split
        · rename_i i
          cases hd : applyDims c (st.heap i).reverse with
          | error x => rfl
          | ok c1 => simp only [hd] at hn ⊢; exact ih _ _ _ hn
        · rfl
      | fn ps =>
        cases ms with
        | nil => simp only [applyMods]
        | cons m ms =>
          simp only [applyMods] at hn ⊢
          split
          · rfl
          · rename_i h1
            rw [if_neg h1] at hn
            split
            · rfl
            · rename_i h2
              rw [if_neg h2] at hn
              have ha := agrees_args h ps st (by
                intro hx
                cases ha : argClasses rec st ps with
                | mk r st1 =>
                  rw [ha] at hx hn
                  cases r with
                  | error x => exact hn (by simpa using hx)
                  | ok cs => cases hx)
              rw [ha]
              cases ha2 : argClasses rec st ps with
              | mk r st1 =>
                rw [ha2] at hn
                cases r with
                | error x => rfl
                | ok args =>
                  simp only at hn ⊢
                  cases hm : mkFn (findPtr 2 false false (m :: ms)).2.1 c args with
                  | error x => rfl
                  | ok c1 => simp only [hm] at hn ⊢; exact ih _ _ _ hn

theorem agrees_struct (h : Agrees rec rec') (st : CtState) (u : Bool) (tag : Str)
    (hn : (getStruct e rec st u tag).1 ≠ .error .recursionError) : getStruct e rec' st u tag = getStruct e rec st u tag := by
  unfold getStruct at hn ⊢
  cases hs : dget st.structs tag with
  | some id => rfl
  | none =>
    simp only [hs] at hn ⊢
    cases hr : resolveAlias e u tag with
    | error x => rfl
    | ok name =>
      simp only [hr] at hn ⊢
      cases hd : dget (e.defs (compKind u)) name with
      | none => rfl
      | some d =>
        cases d with
        | compound ms pack =>
          simp only [hd] at hn ⊢
          rw [agrees_members h]
          intro hx
          apply hn
          revert hx
          cases memberClasses rec _ ((nameMembers [] [] ms).1.zip ms) with
          | mk r st2 =>
            intro hx
            cases r with
            | error x => simpa using hx
            | ok fs => cases hx
        | _ => rfl

theorem agrees_base (h : Agrees rec rec') (pt : Bool) (st : CtState) (t : CType)
    (hn : (baseCls e rec pt st t).1 ≠ .error .recursionError) : baseCls e rec' pt st t = baseCls e rec pt st t := by
  unfold baseCls at hn ⊢
  cases hsp : (if pt then specialCls t else none) with
  | some x => rfl
  | none =>
    simp only [hsp] at hn ⊢
    cases ht : dget e.types t.spec with
    | some p => rfl
    | none =>
      simp only [ht] at hn ⊢
      split
      · rename_i hst
        rw [if_pos hst] at hn
        cases htag : resolveAlias.tagOf e t.spec with
        | error x => rfl
        | ok tag =>
          simp only [htag] at hn ⊢
          rw [agrees_struct h]
          intro hx
          apply hn
          revert hx
          cases getStruct e rec st (!startsWith t.spec c%"struct ") tag with
          | mk r st2 =>
            intro hx
            cases r with
            | error x => simpa using hx
            | ok fs => cases hx
      · rfl

theorem agrees_getType (n : Nat) : Agrees (getType e n) (getType e (n + 1)) := by
  induction n with
  | zero => intro st t h; simp [getType] at h
  | succ n ih =>
    intro st t hn
    rw [getType] at hn ⊢
    rw [getType]
    cases hev : evalType e.cfg e.tm t with
    | error x => rfl
    | ok r =>
      simp only [hev] at hn ⊢
      have hb : baseCls e (getType e (n + 1)) true st r = baseCls e (getType e n) true st r := by
        refine agrees_base ih true st r ?_
        intro hx
        apply hn
        revert hx
        cases baseCls e (getType e n) true st r with
        | mk res st1 =>
          intro hx
          cases res with
          | error x => simpa using hx
          | ok cm => cases hx
      rw [hb]
      cases hbc : baseCls e (getType e n) true st r with
      | mk res st1 =>
        rw [hbc] at hn
        cases res with
        | error x => rfl
        | ok cm =>
          simp only at hn ⊢
          exact agrees_apply ih _ _ _ _ _ hn

theorem agrees_more {n m : Nat} (h : n ≤ m) : Agrees (getType e n) (getType e m) := by
  induction h with
  | refl => intro st t _; rfl
  | step h ih =>
    intro st t hn
    have h1 := ih st t hn
    rw [← h1]
    exact agrees_getType _ st t (by rw [h1]; exact hn)

end

end Pyclib
