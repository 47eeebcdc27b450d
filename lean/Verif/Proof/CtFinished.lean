import Verif.Proof.CtypesMirror
/-! A request that succeeds leaves no new class unfinished. -/
namespace Pyclib
open Spec

/-- Classes without `_fields_`. -/
def Unfin (st : CtState) (id : Nat) : Prop := ∃ c, st.classes[id]? = some c ∧ c.fields = none

/-- Nothing unfinished is added. -/
def NoNew (st st' : CtState) : Prop := ∀ id, Unfin st' id → Unfin st id

/-- Requests that succeed add nothing unfinished. -/
def FinRec (rec : CtState → CType → Except PyErr Cls × CtState) : Prop :=
  ∀ st t c st', rec st t = (.ok c, st') → NoNew st st'

section
variable {rec : CtState → CType → Except PyErr Cls × CtState} {e : CtEnv}

theorem fin_args (h : FinRec rec) (ps : List Param) : ∀ st cs st', argClasses rec st ps = (.ok cs, st') → NoNew st st' := by
  induction ps with
  | nil => intro st cs st' h; simp [argClasses] at h; rw [h.2]; exact fun _ h => h
  | cons p ps ih =>
    intro st cs st' hr
    simp only [argClasses] at hr
    cases hc : rec st p.2.1 with
    | mk r st1 =>
      rw [hc] at hr
      cases r with
      | error x => simp at hr
      | ok c =>
        simp only at hr
        cases ha : argClasses rec st1 ps with
        | mk r2 st2 =>
          rw [ha] at hr
          cases r2 with
          | error x => simp at hr
          | ok cs =>
            simp at hr
            rw [← hr.2]
            exact fun id hid => h _ _ _ _ hc id (ih _ _ _ ha id hid)

theorem fin_members (h : FinRec rec) (ms : List (Str × Member)) : ∀ st fs st', memberClasses rec st ms = (.ok fs, st') → NoNew st st' := by
  induction ms with
  | nil => intro st cs st' h; simp [memberClasses] at h; rw [h.2]; exact fun _ h => h
  | cons p ms ih =>
    obtain ⟨n, m⟩ := p
    intro st cs st' hr
    simp only [memberClasses] at hr
    cases hc : rec st m.type with
    | mk r st1 =>
      rw [hc] at hr
      cases r with
      | error x => simp at hr
      | ok c =>
        simp only at hr
        cases ha : memberClasses rec st1 ms with
        | mk r2 st2 =>
          rw [ha] at hr
          cases r2 with
          | error x => simp at hr
          | ok cs =>
            simp at hr
            rw [← hr.2]
            exact fun id hid => h _ _ _ _ hc id (ih _ _ _ ha id hid)

theorem fin_apply (h : FinRec rec) (w : Bool) (n : Nat) : ∀ st c ms c' st', applyMods w rec n st c ms = (.ok c', st') → NoNew st st' := by
  induction n with
  | zero =>
    intro st c ms c' st' hr
    cases ms with
    | nil => simp [applyMods] at hr; rw [hr.2]; exact fun _ h => h
    | cons m ms => simp [applyMods] at hr
  | succ n ih =>
    intro st c ms c' st' hr
    cases ms with
    | nil => simp [applyMods] at hr; rw [hr.2]; exact fun _ h => h
    | cons m ms =>
      cases m with
      | sym s =>
        cases s with
        | nil => simp [applyMods] at hr
        | cons x s => simp only [applyMods] at hr; exact ih _ _ _ _ _ hr
      | arr d =>
        simp only [applyMods] at hr
        split at hr
        · rename_i i
          cases hd : applyDims c (st.heap i).reverse with
          | error x => simp [hd] at hr
          | ok c1 => simp only [hd] at hr; exact ih _ _ _ _ _ hr
        · simp at hr
      | fn ps =>
        cases ms with
        | nil => simp [applyMods] at hr
        | cons m ms =>
          simp only [applyMods] at hr
          split at hr
          · simp at hr
          · split at hr
            · simp at hr
            · cases ha : argClasses rec st ps with
              | mk r st1 =>
                rw [ha] at hr
                cases r with
                | error x => simp at hr
                | ok args =>
                  simp only at hr
                  cases hm : mkFn (findPtr 2 false false (m :: ms)).2.1 c args with
                  | error x => simp [hm] at hr
                  | ok c1 =>
                    simp only [hm] at hr
                    exact fun id hid => fin_args h _ _ _ _ ha id (ih _ _ _ _ _ hr id hid)

theorem fin_struct (h : FinRec rec) (st : CtState) (u : Bool) (tag : Str) (c : Cls) (st' : CtState)
    (hr : getStruct e rec st u tag = (.ok c, st')) : NoNew st st' := by
  unfold getStruct at hr
  cases hs : dget st.structs tag with
  | some id => simp [hs] at hr; rw [hr.2]; exact fun _ h => h
  | none =>
    simp only [hs] at hr
    cases ha : resolveAlias e u tag with
    | error x => simp [ha] at hr
    | ok name =>
      simp only [ha] at hr
      cases hd : dget (e.defs (compKind u)) name with
      | none => simp [hd] at hr
      | some d =>
        cases d with
        | compound ms pack =>
          simp only [hd] at hr
          cases hm : memberClasses rec { st with structs := dset st.structs name st.classes.length, classes := st.classes ++
              [⟨u, name, pack, (nameMembers [] [] ms).2, none⟩] } ((nameMembers [] [] ms).1.zip ms) with
          | mk r st2 =>
            rw [hm] at hr
            cases r with
            | error x => simp at hr
            | ok fs =>
              simp only at hr
              cases hc : checkFields (nameMembers [] [] ms).2 fs with
              | error x => simp [hc] at hr
              | ok _ =>
                simp [hc] at hr
                have h1 := fin_members h _ _ _ _ hm
                rw [← hr.2]
                rintro id ⟨c, hcl, hf⟩
                simp only [listSet_get] at hcl
                split at hcl
                · cases hcl; cases hf
                · rename_i hne
                  obtain ⟨c', h2, h3⟩ := h1 id ⟨c, hcl, hf⟩
                  simp only at h2
                  rw [List.getElem?_append] at h2
                  split at h2
                  · exact ⟨c', h2, h3⟩
                  · rename_i hlt
                    have : id - st.classes.length = 0 := by
                      cases hk : id - st.classes.length with
                      | zero => rfl
                      | succ k => rw [hk] at h2; simp at h2
                    exact (hne ⟨by omega, (List.getElem?_eq_some_iff.1 hcl).1⟩).elim
        | _ => simp [hd] at hr

theorem fin_base (h : FinRec rec) (pt : Bool) (st : CtState) (t : CType) (cm : Cls × List CMod) (st' : CtState)
    (hr : baseCls e rec pt st t = (.ok cm, st')) : NoNew st st' := by
  unfold baseCls at hr
  cases hsp : (if pt then specialCls t else none) with
  | some x => simp [hsp] at hr; rw [hr.2]; exact fun _ h => h
  | none =>
    simp only [hsp] at hr
    cases ht : dget e.types t.spec with
    | some p => simp [ht] at hr; rw [hr.2]; exact fun _ h => h
    | none =>
      simp only [ht] at hr
      split at hr
      · cases htag : resolveAlias.tagOf e t.spec with
        | error x => simp [htag] at hr
        | ok tag =>
          simp only [htag] at hr
          cases hg : getStruct e rec st (!startsWith t.spec c%"struct ") tag with
          | mk r st1 =>
            rw [hg] at hr
            cases r with
            | error x => simp at hr
            | ok c => simp at hr; rw [← hr.2]; exact fin_struct h _ _ _ _ _ hg
      · split at hr
        · simp at hr; rw [hr.2]; exact fun _ h => h
        · split at hr
          · simp at hr; rw [hr.2]; exact fun _ h => h
          · simp at hr

theorem fin_getType (n : Nat) : FinRec (getType e n) := by
  induction n with
  | zero => intro st t c st' h; simp [getType] at h
  | succ n ih =>
    intro st t c st' h
    rw [getType] at h
    cases hev : evalType e.cfg e.tm t with
    | error x => simp [hev] at h
    | ok r =>
      simp only [hev] at h
      cases hb : baseCls e (getType e n) true st r with
      | mk res st1 =>
        rw [hb] at h
        cases res with
        | error x => simp at h
        | ok cm =>
          simp only at h
          have h1 := fin_apply ih _ _ _ _ _ _ _ h
          have h2 := fin_base ih _ _ _ _ _ hb
          rintro id hid
          exact h2 id (h1 id hid)

end

end Pyclib
