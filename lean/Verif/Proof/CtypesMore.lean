import Verif.Proof.CtypesMirror
/-
Classes are kept, asking again changes nothing, and the recursion ends: lemmas behind C48 and C49.
-/
namespace Pyclib
open Spec

theorem tagOf_tag' {e : CtEnv} (hw : TagsOk e) (u : Bool) (r tag : Str)
    (h : resolveAlias.tagOf e (compWord u ++ ' ' :: r) = .ok tag) :
    tag = r ∧ dhas (e.defs (compKind u)) r = true := by
  unfold resolveAlias.tagOf at h
  cases hd : dget e.tm (compWord u ++ ' ' :: r) with
  | none => rw [hd] at h; simp at h
  | some pt =>
    rw [hd] at h
    obtain ⟨h1, h2⟩ := hw u r pt hd
    cases hm : pt.mods with
    | nil => rw [hm] at h1; cases h1
    | cons m ms =>
      rw [hm] at h1
      simp at h1; subst h1
      simp [hm] at h
      exact ⟨h.symm, h2⟩

/-- `st'` keeps the classes of `st`. -/
def Keeps (st st' : CtState) : Prop := ∀ tag id, dget st.structs tag = some id → dget st'.structs tag = some id

theorem Keeps.refl (st : CtState) : Keeps st st := fun _ _ h => h
theorem Keeps.trans {a b c : CtState} (h1 : Keeps a b) (h2 : Keeps b c) : Keeps a c := fun t i h => h2 t i (h1 t i h)

def KeepsRec (rec : CtState → CType → Except PyErr Cls × CtState) : Prop := ∀ st t, Keeps st (rec st t).2

section
variable {rec : CtState → CType → Except PyErr Cls × CtState} {e : CtEnv}

theorem keeps_args (hr : KeepsRec rec) (ps : List Param) : ∀ st, Keeps st (argClasses rec st ps).2 := by
  induction ps with
  | nil => intro st; exact .refl _
  | cons p ps ih =>
    intro st
    have h1 := hr st p.2.1
    simp only [argClasses]
    cases hc : rec st p.2.1 with
    | mk r st1 =>
      rw [hc] at h1
      cases r with
      | error x => exact h1
      | ok c =>
        simp only
        have h2 := ih st1
        cases ha : argClasses rec st1 ps with
        | mk r2 st2 =>
          rw [ha] at h2
          cases r2 with
          | error x => exact h1.trans h2
          | ok cs => exact h1.trans h2

theorem keeps_members (hr : KeepsRec rec) (ms : List (Str × Member)) : ∀ st, Keeps st (memberClasses rec st ms).2 := by
  induction ms with
  | nil => intro st; exact .refl _
  | cons p ms ih =>
    obtain ⟨n, m⟩ := p
    intro st
    have h1 := hr st m.type
    simp only [memberClasses]
    cases hc : rec st m.type with
    | mk r st1 =>
      rw [hc] at h1
      cases r with
      | error x => exact h1
      | ok c =>
        simp only
        have h2 := ih st1
        cases ha : memberClasses rec st1 ms with
        | mk r2 st2 =>
          rw [ha] at h2
          cases r2 with
          | error x => exact h1.trans h2
          | ok cs => exact h1.trans h2

theorem keeps_apply (hr : KeepsRec rec) (w : Bool) (n : Nat) : ∀ st c ms, Keeps st (applyMods w rec n st c ms).2 := by
  induction n with
  | zero =>
    intro st c ms
    cases ms with
    | nil => simp only [applyMods]; exact .refl _
    | cons m ms => simp only [applyMods]; exact .refl _
  | succ n ih =>
    intro st c ms
    cases ms with
    | nil => simp only [applyMods]; exact .refl _
    | cons m ms =>
      cases m with
      | sym s =>
        cases s with
        | nil => simp only [applyMods]; exact .refl _
        | cons x s => simp only [applyMods]; exact ih _ _ _
      | arr d =>
        simp only [applyMods]
        split
        · cases applyDims c (st.heap _).reverse with
          | error x => exact .refl _
          | ok c1 => exact ih _ _ _
        · exact .refl _
      | fn ps =>
        cases ms with
        | nil => simp only [applyMods]; exact .refl _
        | cons m ms =>
          simp only [applyMods]
          split
          · exact .refl _
          · split
            · exact .refl _
            · have h1 := keeps_args hr ps st
              cases ha : argClasses rec st ps with
              | mk r st1 =>
                rw [ha] at h1
                cases r with
                | error x => exact h1
                | ok args =>
                  simp only
                  cases mkFn (findPtr 2 false false (m :: ms)).2.1 c args with
                  | error x => exact h1
                  | ok c1 => exact h1.trans (ih _ _ _)

/-- What `getStruct` does with a tag that is defined. -/
theorem keeps_struct (hr : KeepsRec rec) (st : CtState) (u : Bool) (tag : Str)
    (hd : dhas (e.defs (compKind u)) tag = true) :
    Keeps st (getStruct e rec st u tag).2 ∧
    ∀ c, (getStruct e rec st u tag).1 = .ok c → ∃ id, c = .comp id ∧ dget (getStruct e rec st u tag).2.structs tag = some id := by
  unfold getStruct
  cases hs : dget st.structs tag with
  | some id =>
    refine ⟨.refl _, fun c hc => ?_⟩
    simp at hc
    exact ⟨id, hc.symm, hs⟩
  | none =>
    simp only [resolveAlias, hd, if_true]
    cases hdd : dget (e.defs (compKind u)) tag with
    | none => exact ⟨.refl _, by simp⟩
    | some d =>
      cases d with
      | compound ms pack =>
        simp only
        generalize hst1 : ({ st with structs := dset st.structs tag st.classes.length,
                                     classes := st.classes ++ [⟨u, tag, pack, (nameMembers [] [] ms).2, none⟩] } : CtState) = st1
        have s1 : st1.structs = dset st.structs tag st.classes.length := by rw [← hst1]
        have hgrow : Keeps st st1 := by
          intro tg id h
          rw [s1, dget_dset]
          split
          · rename_i he; subst he; rw [hs] at h; cases h
          · exact h
        have hreg : dget st1.structs tag = some st.classes.length := by rw [s1]; simp
        have h1 := keeps_members hr ((nameMembers [] [] ms).1.zip ms) st1
        cases hmc : memberClasses rec st1 ((nameMembers [] [] ms).1.zip ms) with
        | mk r st2 =>
          rw [hmc] at h1
          cases r with
          | error x => exact ⟨hgrow.trans h1, by simp⟩
          | ok fs =>
            simp only
            cases hck : checkFields (nameMembers [] [] ms).2 fs with
            | error x => exact ⟨hgrow.trans h1, by simp⟩
            | ok _ =>
              refine ⟨hgrow.trans h1, fun c hc => ?_⟩
              simp at hc
              exact ⟨_, hc.symm, h1 _ _ hreg⟩
      | _ => exact ⟨.refl _, by simp⟩

theorem comp_split {s : Str} (hst : (startsWith s c%"struct " || startsWith s c%"union ") = true) :
    ∃ u r, s = compWord u ++ ' ' :: r ∧ (!startsWith s c%"struct ") = u := by
  by_cases h1 : startsWith s c%"struct " = true
  · obtain ⟨r, hr⟩ := startsWith_split h1
    exact ⟨false, r, by rw [hr]; rfl, by rw [h1]; rfl⟩
  · simp only [h1, Bool.false_or] at hst
    obtain ⟨r, hr⟩ := startsWith_split hst
    exact ⟨true, r, by rw [hr]; rfl, by simp at h1; rw [h1]; rfl⟩

theorem keeps_base (hw : TagsOk e) (hr : KeepsRec rec) (pt : Bool) (st : CtState) (t : CType) :
    Keeps st (baseCls e rec pt st t).2 := by
  unfold baseCls
  cases (if pt then specialCls t else none) with
  | some x => exact .refl _
  | none =>
    simp only
    cases dget e.types t.spec with
    | some p => exact .refl _
    | none =>
      simp only
      by_cases hst : (startsWith t.spec c%"struct " || startsWith t.spec c%"union ") = true
      · rw [if_pos hst]
        obtain ⟨u, r, hsr, hu⟩ := comp_split hst
        rw [hu]
        cases htag : resolveAlias.tagOf e t.spec with
        | error x => exact .refl _
        | ok tag =>
          simp only
          rw [hsr] at htag
          obtain ⟨rfl, hdd⟩ := tagOf_tag' hw u r tag htag
          have h1 := (keeps_struct hr st u tag hdd).1
          cases hg : getStruct e rec st u tag with
          | mk res st1 =>
            rw [hg] at h1
            cases res with
            | error x => exact h1
            | ok c1 => exact h1
      · rw [if_neg hst]
        split
        · exact .refl _
        · split
          · exact .refl _
          · exact .refl _

theorem keeps_getType (hw : TagsOk e) (n : Nat) : KeepsRec (getType e n) := by
  induction n with
  | zero => intro st t; exact .refl _
  | succ n ih =>
    intro st t
    simp only [getType]
    cases evalType e.cfg e.tm t with
    | error x => exact .refl _
    | ok r =>
      simp only
      have h1 := keeps_base hw ih true st r
      cases hb : baseCls e (getType e n) true st r with
      | mk res st1 =>
        rw [hb] at h1
        cases res with
        | error x => exact h1
        | ok cm =>
          simp only
          have h2 := keeps_apply ih e.cfg.win32 (mergeMods st1.heap cm.2).1.length
            { st1 with heap := (mergeMods st1.heap cm.2).2 } cm.1 (mergeMods st1.heap cm.2).1
          exact fun tg id hh => h2 tg id (h1 tg id hh)

/-! ### Asking again -/

/-- After `rec` succeeded on a type that can be shared, `rec` succeeds with the same class on any later state
and changes nothing. -/
def Again (e : CtEnv) (own : Int → Owner) (dim : Int → Option Int)
    (rec : CtState → CType → Except PyErr Cls × CtState) : Prop :=
  ∀ t st st2 c, TyOk e own .shared t → CtInv e own dim st → CtInv e own dim st2 → (rec st t).1 = .ok c →
    Keeps (rec st t).2 st2 → rec st2 t = (.ok c, st2)

variable {own : Int → Owner} {dim : Int → Option Int}

theorem again_args (hr : RecOk e own dim rec) (hk : KeepsRec rec) (ha : Again e own dim rec) (ps : List Param) :
    ∀ (st st2 : CtState) (cs : List Cls), (∀ p ∈ ps, TyOk e own .shared p.2.1) → CtInv e own dim st →
    CtInv e own dim st2 → (argClasses rec st ps).1 = .ok cs → Keeps (argClasses rec st ps).2 st2 →
    argClasses rec st2 ps = (.ok cs, st2) := by
  induction ps with
  | nil => intro st st2 cs _ _ _ h _; simp [argClasses] at h; subst h; rfl
  | cons p ps ih =>
    intro st st2 cs hp hi hi2 h hkk
    have hp0 := hp p (by simp)
    obtain ⟨h1, h1c, _⟩ := hr .shared p.2.1 st hp0 hi (clean_shared hi hp0) (by simp)
    simp only [argClasses] at h hkk ⊢
    cases hc : rec st p.2.1 with
    | mk r st1 =>
      rw [hc] at h h1 h1c hkk
      cases r with
      | error x => simp at h
      | ok c =>
        simp only at h hkk
        have k2 := keeps_args hk ps st1
        cases hc2 : argClasses rec st1 ps with
        | mk r2 st3 =>
          rw [hc2] at h hkk k2
          cases r2 with
          | error x => simp at h
          | ok cs' =>
            simp at h; subst h
            simp only at hkk
            have e1 := ha p.2.1 st st2 c hp0 hi hi2 (by rw [hc]) (by rw [hc]; exact k2.trans hkk)
            rw [e1]
            simp only
            have e2 := ih st1 st2 cs' (fun q hq => hp q (by simp [hq])) (h1.inv hi h1c (by simp)) hi2 (by rw [hc2])
              (by rw [hc2]; exact hkk)
            rw [e2]

theorem again_apply (hr : RecOk e own dim rec) (hk : KeepsRec rec) (ha : Again e own dim rec) (n : Nat) :
    ∀ (st st2 : CtState) (c c' : Cls) (l : List CMod), FnPtrs e.cfg.win32 l →
    (∀ ps p, .fn ps ∈ l → p ∈ ps → TyOk e own .shared p.2.1) → (∀ i ∈ idsOf l, own i = .shared) →
    CtInv e own dim st → CtInv e own dim st2 → (applyMods e.cfg.win32 rec n st c l).1 = .ok c' →
    Keeps (applyMods e.cfg.win32 rec n st c l).2 st2 → applyMods e.cfg.win32 rec n st2 c l = (.ok c', st2) := by
  induction n with
  | zero =>
    intro st st2 c c' l _ _ _ _ _ h _
    cases l with
    | nil => simp [applyMods] at h ⊢; exact h
    | cons m l => simp [applyMods] at h
  | succ n ih =>
    intro st st2 c c' l hf hp hid hi hi2 h hkk
    cases l with
    | nil => simp [applyMods] at h ⊢; exact h
    | cons m l =>
      have hp' : ∀ ps p, .fn ps ∈ l → p ∈ ps → TyOk e own .shared p.2.1 :=
        fun ps p hps => hp ps p (List.mem_cons_of_mem _ hps)
      have hid' : ∀ i ∈ idsOf l, own i = .shared :=
        fun i hi => hid i (by rw [mem_idsOf] at hi ⊢; exact List.mem_cons_of_mem _ hi)
      cases m with
      | sym s =>
        cases s with
        | nil => simp [applyMods] at h
        | cons x s =>
          simp only [applyMods] at h hkk ⊢
          exact ih st st2 _ c' l hf.2 hp' hid' hi hi2 h hkk
      | arr d =>
        simp only [applyMods] at h hkk ⊢
        split at h
        · rename_i i
          have e1 : st2.heap i = st.heap i := by
            have ho := hid i (by rw [mem_idsOf]; simp)
            rw [hi2.shared i ho, hi.shared i ho]
          rw [e1]
          cases hd : applyDims c (st.heap i).reverse with
          | error x => simp [hd] at h
          | ok c1 =>
            simp only [hd] at h hkk ⊢
            exact ih st st2 c1 c' l hf hp' hid' hi hi2 h hkk
        · simp at h
      | fn ps =>
        cases l with
        | nil => simp [applyMods] at h
        | cons m l =>
          obtain ⟨std, rest, hfp, hfr, _, _, hsp⟩ := findPtr_fn hf
          have hsub : ∀ x ∈ rest, x ∈ m :: l := by
            intro x hx
            rcases hsp with ⟨cv, _, he⟩ | he <;> rw [he] <;> simp [hx]
          simp only [applyMods, hfp] at h hkk ⊢
          simp only [Bool.not_true, Bool.false_eq_true, if_false] at h hkk ⊢
          split at h
          · simp at h
          · rename_i hstd
            rw [if_neg hstd] at hkk ⊢
            have hps : ∀ p ∈ ps, TyOk e own .shared p.2.1 := fun p hpp => hp ps p (by simp) hpp
            obtain ⟨a1, a1c, _⟩ := argClasses_ok hr ps st hps hi
            cases hac : argClasses rec st ps with
            | mk r st1 =>
              rw [hac] at h hkk a1 a1c
              cases r with
              | error x => simp at h
              | ok args =>
                simp only at h hkk
                cases hmk : mkFn std c args with
                | error x => simp [hmk] at h
                | ok c1 =>
                  simp only [hmk] at h hkk
                  have k2 := keeps_apply hk e.cfg.win32 n st1 c1 rest
                  have e1 := again_args hr hk ha ps st st2 args hps hi hi2 (by rw [hac]) (by rw [hac]; exact k2.trans hkk)
                  rw [e1]
                  simp only [hmk]
                  exact ih st1 st2 c1 c' rest hfr (fun ps p h => hp' ps p (hsub _ h))
                    (fun i h => hid' i (by rw [mem_idsOf] at h ⊢; exact hsub _ h)) (a1.inv hi a1c (by simp)) hi2 h hkk

theorem mergeMods_noAdj (h : Int → List (Option Int)) (l : List CMod) (hn : NoAdj l) : mergeMods h l = (l, h) := by
  have := mergeMods_prepend h l [] (by simpa using hn)
  simpa [mergeMods] using this

theorem again_getType (hw : CtWorld e own) (n : Nat) : Again e own dim (getType e n) := by
  have htags : TagsOk e := hw.tags
  induction n with
  | zero => intro t st st2 c _ _ _ h; simp [getType] at h
  | succ n ih =>
    intro t st st2 c ht hi hi2 h hk
    simp only [getType] at h hk ⊢
    cases hev : evalType e.cfg e.tm t with
    | error x => simp [hev] at h
    | ok r =>
      simp only [hev] at h hk ⊢
      obtain ⟨b, hb, rfl⟩ := (C01_result _ _ t r hw.map ht.1.quals).1 hev
      obtain ⟨hfn, hsh, _⟩ := ht.1.res b hb
      have hna : NoAdj b.mods := hsh rfl
      obtain ⟨pre, hbm, hprem⟩ := resolves_pre hb
      have hps : ∀ ps p, .fn ps ∈ b.mods → p ∈ ps → TyOk e own .shared p.2.1 := by
        intro ps p hf hp
        rw [hbm, List.mem_append] at hf
        rcases hf with hf | hf
        · obtain ⟨s, pt, hd, hm⟩ := hprem _ hf
          exact ⟨hw.typedefs s pt _ hd (.param _ _ ps p hm hp (.refl _)), fun ps' p' u hf' hp' hu =>
            hw.typedefs s pt _ hd (.param _ _ ps p hm hp (.param _ _ ps' p' hf' hp' hu))⟩
        · exact param_ok ht hf hp
      have hids : ∀ i ∈ idsOf b.mods, own i = .shared := by
        intro i hib
        rw [mem_idsOf, hbm, List.mem_append] at hib
        rcases hib with hib | hib
        · obtain ⟨s, pt, hd', hm⟩ := hprem _ hib
          exact (hw.typedefs s pt pt hd' (.refl _)).owned i (mem_idsOf.2 hm)
        · exact ht.1.owned i (mem_idsOf.2 hib)
      have hr := getType_ok (dim := dim) hw n
      have hkr := keeps_getType htags n
      obtain ⟨b1, b2, b3⟩ := baseCls_ok hr hw st ⟨dropSigned b.spec, b.mods, b.quals⟩ hi
      cases hbc : baseCls e (getType e n) true st ⟨dropSigned b.spec, b.mods, b.quals⟩ with
      | mk res st1 =>
        rw [hbc] at h hk b1 b2 b3
        cases res with
        | error x => simp at h
        | ok cm =>
          obtain ⟨c0, mods⟩ := cm
          simp only at h hk
          have hi1 : CtInv e own dim st1 := b1.inv hi b2 (by simp)
          -- the modifiers that are left
          have hmods : (mods = b.mods ∨ b.mods = .sym c%"*" :: mods) := by
            rcases b3 c0 mods rfl with ⟨p, _, _, hm⟩ | ⟨rfl, _⟩
            · exact .inr hm
            · exact .inl rfl
          have hsubm : ∀ x ∈ mods, x ∈ b.mods := by
            intro x hx
            rcases hmods with rfl | hm
            · exact hx
            · rw [hm]; exact List.mem_cons_of_mem _ hx
          have hnam : NoAdj mods := by
            rcases hmods with rfl | hm
            · exact hna
            · rw [hm] at hna; exact noAdj_tail hna
          have hfnm : FnPtrs e.cfg.win32 mods := by
            rcases hmods with rfl | hm
            · exact hfn
            · rw [hm] at hfn; exact hfn.2
          rw [mergeMods_noAdj _ _ hnam] at h hk
          simp only at h hk
          have hk1 : Keeps st1 st2 := by
            have := keeps_apply hkr e.cfg.win32 mods.length { st1 with heap := st1.heap } c0 mods
            exact fun tg id hh => hk tg id (this tg id hh)
          have hb2 : baseCls e (getType e n) true st2 ⟨dropSigned b.spec, b.mods, b.quals⟩ = (.ok (c0, mods), st2) := by
            unfold baseCls at hbc ⊢
            simp only [if_true] at hbc ⊢
            cases hspc : specialCls ⟨dropSigned b.spec, b.mods, b.quals⟩ with
            | some x => rw [hspc] at hbc; simp at hbc ⊢; exact hbc.1
            | none =>
              simp only [hspc] at hbc ⊢
              cases hty : dget e.types (dropSigned b.spec) with
              | some p => simp only [hty] at hbc ⊢; simp at hbc ⊢; exact hbc.1
              | none =>
                simp only [hty] at hbc ⊢
                by_cases hst : (startsWith (dropSigned b.spec) c%"struct " || startsWith (dropSigned b.spec) c%"union ") = true
                · rw [if_pos hst] at hbc ⊢
                  obtain ⟨u, r, hsr, hu⟩ := comp_split hst
                  rw [hu] at hbc ⊢
                  cases htag : resolveAlias.tagOf e (dropSigned b.spec) with
                  | error x => simp [htag] at hbc
                  | ok tag =>
                    simp only [htag] at hbc ⊢
                    rw [hsr] at htag
                    obtain ⟨rfl, hdd⟩ := tagOf_tag' htags u r tag htag
                    have h1 := keeps_struct hkr st u tag hdd
                    cases hg : getStruct e (getType e n) st u tag with
                    | mk res st3 =>
                      rw [hg] at h1 hbc
                      cases res with
                      | error x => simp at hbc
                      | ok c1 =>
                        simp at hbc
                        obtain ⟨⟨rfl, rfl⟩, rfl⟩ := hbc
                        obtain ⟨id, rfl, hid⟩ := h1.2 c1 rfl
                        have : getStruct e (getType e n) st2 u tag = (.ok (.comp id), st2) := by
                          unfold getStruct
                          rw [hk1 _ _ hid]
                        rw [this]
                · rw [if_neg hst] at hbc ⊢
                  split at hbc
                  · rename_i hh; rw [if_pos hh]; simp at hbc ⊢; exact hbc.1
                  · rename_i hh; rw [if_neg hh]
                    split at hbc
                    · rename_i hh; rw [if_pos hh]; simp at hbc ⊢; exact hbc.1
                    · simp at hbc
          rw [hb2]
          simp only
          rw [mergeMods_noAdj _ _ hnam]
          simp only
          exact again_apply hr hkr ih mods.length st1 st2 c0 c mods hfnm (fun ps p hf hp => hps ps p (hsubm _ hf) hp)
            (fun i hi => hids i (by rw [mem_idsOf] at hi ⊢; exact hsubm _ hi)) hi1 hi2 h hk

/-! ### The recursion ends -/

/-- The number of tags that have no class yet. -/
def openTags (e : CtEnv) (st : CtState) : Nat :=
  ((dkeys (e.defs .structs) ++ dkeys (e.defs .unions)).filter (fun t => (dget st.structs t).isNone)).length

theorem filter_length_le {α : Type} {p q : α → Bool} (l : List α) (h : ∀ x ∈ l, p x = true → q x = true) :
    (l.filter p).length ≤ (l.filter q).length := by
  induction l with
  | nil => simp
  | cons x l ih =>
    have ih' := ih (fun y hy => h y (List.mem_cons_of_mem _ hy))
    have hx := h x (by simp)
    by_cases hp : p x = true
    · simp [hp, hx hp]; exact ih'
    · by_cases hq : q x = true
      · simp [hp, hq]; omega
      · simp [hp, hq]; exact ih'

theorem filter_length_lt {α : Type} {p q : α → Bool} (l : List α) (h : ∀ x ∈ l, p x = true → q x = true) (y : α)
    (hy : y ∈ l) (hp : p y = false) (hq : q y = true) : (l.filter p).length < (l.filter q).length := by
  induction l with
  | nil => cases hy
  | cons x l ih =>
    have hle := filter_length_le l (fun z hz => h z (List.mem_cons_of_mem _ hz))
    by_cases hxy : x = y
    · subst hxy; simp [hp, hq]; omega
    · have ih' := ih (fun z hz => h z (List.mem_cons_of_mem _ hz)) (by
        rcases List.mem_cons.1 hy with h | h
        · exact (hxy h.symm).elim
        · exact h)
      have hx := h x (by simp)
      by_cases hpx : p x = true
      · simp [hpx, hx hpx]; exact ih'
      · by_cases hqx : q x = true
        · simp [hpx, hqx]; omega
        · simp [hpx, hqx]; exact ih'

theorem openTags_keeps {st st' : CtState} (h : Keeps st st') : openTags e st' ≤ openTags e st := by
  refine filter_length_le _ fun t _ ht => ?_
  simp at ht ⊢
  exact grow_none h ht

/-- `rec` does not run out of fuel on `t` while at most `k` tags have no class. -/
def Ends (e : CtEnv) (k : Nat) (t : CType) (rec : CtState → CType → Except PyErr Cls × CtState) : Prop :=
  ∀ st, openTags e st ≤ k → (rec st t).1 ≠ .error .recursionError

theorem ends_args (hk : KeepsRec rec) (k : Nat) (ps : List Param) (hp : ∀ p ∈ ps, Ends e k p.2.1 rec) :
    ∀ st, openTags e st ≤ k → (argClasses rec st ps).1 ≠ .error .recursionError := by
  induction ps with
  | nil => intro st _ h; simp [argClasses] at h
  | cons p ps ih =>
    intro st ho
    have h1 := hp p (by simp) st ho
    have k1 := hk st p.2.1
    simp only [argClasses]
    cases hc : rec st p.2.1 with
    | mk r st1 =>
      rw [hc] at h1 k1
      cases r with
      | error x => simpa using h1
      | ok c =>
        simp only
        have h2 := ih (fun q hq => hp q (by simp [hq])) st1 (Nat.le_trans (openTags_keeps k1) ho)
        cases ha : argClasses rec st1 ps with
        | mk r2 st2 =>
          rw [ha] at h2
          cases r2 with
          | error x => simpa using h2
          | ok cs => simp

theorem ends_members (hk : KeepsRec rec) (k : Nat) (ms : List (Str × Member)) (hp : ∀ p ∈ ms, Ends e k p.2.type rec) :
    ∀ st, openTags e st ≤ k → (memberClasses rec st ms).1 ≠ .error .recursionError := by
  induction ms with
  | nil => intro st _ h; simp [memberClasses] at h
  | cons p ps ih =>
    obtain ⟨n, m⟩ := p
    intro st ho
    have h1 := hp (n, m) (by simp) st ho
    have k1 := hk st m.type
    simp only [memberClasses]
    cases hc : rec st m.type with
    | mk r st1 =>
      rw [hc] at k1
      simp only at h1
      rw [hc] at h1
      cases r with
      | error x => simpa using h1
      | ok c =>
        simp only
        have h2 := ih (fun q hq => hp q (by simp [hq])) st1 (Nat.le_trans (openTags_keeps k1) ho)
        cases ha : memberClasses rec st1 ps with
        | mk r2 st2 =>
          rw [ha] at h2
          cases r2 with
          | error x => simpa using h2
          | ok cs => simp

theorem findPtr_sub (n : Nat) : ∀ (p s : Bool) (ms : List CMod), (∀ x ∈ (findPtr n p s ms).2.2, x ∈ ms) ∧
    (findPtr n p s ms).2.2.length ≤ ms.length := by
  induction n with
  | zero => intro p s ms; simp [findPtr]
  | succ n ih =>
    intro p s ms
    cases ms with
    | nil => simp [findPtr]
    | cons m ms =>
      cases m with
      | arr d => simp [findPtr]
      | fn d => simp [findPtr]
      | sym x =>
        simp only [findPtr]
        split
        · obtain ⟨h1, h2⟩ := ih true s ms
          exact ⟨fun y hy => List.mem_cons_of_mem _ (h1 y hy), by simp; omega⟩
        · split
          · obtain ⟨h1, h2⟩ := ih p (x == c%"__stdcall") ms
            exact ⟨fun y hy => List.mem_cons_of_mem _ (h1 y hy), by simp; omega⟩
          · simp

theorem applyDims_noRec (c : Cls) (ds : List (Option Int)) : applyDims c ds ≠ .error .recursionError := by
  induction ds generalizing c with
  | nil => simp [applyDims]
  | cons d ds ih =>
    simp only [applyDims]
    cases h : applyDim c d with
    | ok c1 => exact ih c1
    | error x =>
      simp only
      intro hx
      injection hx with hx
      subst hx
      unfold applyDim at h
      split at h
      · cases h
      · cases c <;> cases d <;> simp [mkArr] at h <;> split at h <;> cases h

theorem ends_apply (hk : KeepsRec rec) (w : Bool) (k : Nat) (n : Nat) : ∀ (st : CtState) (c : Cls) (ms : List CMod),
    ms.length ≤ n → openTags e st ≤ k → (∀ ps p, .fn ps ∈ ms → p ∈ ps → Ends e k p.2.1 rec) →
    (applyMods w rec n st c ms).1 ≠ .error .recursionError := by
  induction n with
  | zero =>
    intro st c ms hl _ _
    cases ms with
    | nil => simp [applyMods]
    | cons m ms => simp at hl
  | succ n ih =>
    intro st c ms hl ho hp
    cases ms with
    | nil => simp [applyMods]
    | cons m ms =>
      have hl' : ms.length ≤ n := by simpa using hl
      have hp' : ∀ ps p, .fn ps ∈ ms → p ∈ ps → Ends e k p.2.1 rec := fun ps p h => hp ps p (List.mem_cons_of_mem _ h)
      cases m with
      | sym s =>
        cases s with
        | nil => simp [applyMods]
        | cons x s => simp only [applyMods]; exact ih _ _ _ hl' ho hp'
      | arr d =>
        simp only [applyMods]
        split
        · rename_i i
          have := applyDims_noRec c (st.heap i).reverse
          cases hd : applyDims c (st.heap i).reverse with
          | error x => rw [hd] at this; simpa using this
          | ok c1 => exact ih _ _ _ hl' ho hp'
        · simp
      | fn ps =>
        cases ms with
        | nil => simp [applyMods]
        | cons m ms =>
          simp only [applyMods]
          split
          · simp
          · split
            · simp
            · have h1 := ends_args hk k ps (fun p hpp => hp ps p (by simp) hpp) st ho
              have k1 := keeps_args hk ps st
              cases ha : argClasses rec st ps with
              | mk r st1 =>
                rw [ha] at h1 k1
                cases r with
                | error x => simpa using h1
                | ok args =>
                  simp only
                  cases hm : mkFn (findPtr 2 false false (m :: ms)).2.1 c args with
                  | error x =>
                    unfold mkFn at hm
                    split at hm
                    · simp at hm; subst hm; simp
                    · cases hm
                  | ok c1 =>
                    obtain ⟨f1, f2⟩ := findPtr_sub 2 false false (m :: ms)
                    exact ih _ _ _ (Nat.le_trans f2 hl') (Nat.le_trans (openTags_keeps k1) ho) (fun ps p h => hp' ps p (f1 _ h))

theorem ends_base (hw : TagsOk e) (hk : KeepsRec rec) (k : Nat) (t : CType) (st : CtState) (ho : openTags e st ≤ k + 1)
    (hm : ∀ u tag ms pack m, dget (e.defs (compKind u)) tag = some (.compound ms pack) → m ∈ ms → Ends e k m.type rec) :
    (baseCls e rec true st t).1 ≠ .error .recursionError := by
  unfold baseCls
  simp only [if_true]
  cases specialCls t with
  | some x => simp
  | none =>
    simp only
    cases dget e.types t.spec with
    | some p => simp
    | none =>
      simp only
      by_cases hst : (startsWith t.spec c%"struct " || startsWith t.spec c%"union ") = true
      · rw [if_pos hst]
        obtain ⟨u, r, hsr, hu⟩ := comp_split hst
        rw [hu]
        cases htag : resolveAlias.tagOf e t.spec with
        | error x =>
          simp only
          intro hx
          injection hx with hx; subst hx
          unfold resolveAlias.tagOf at htag
          split at htag
          · cases htag
          · split at htag <;> cases htag
        | ok tag =>
          simp only
          rw [hsr] at htag
          obtain ⟨rfl, hdd⟩ := tagOf_tag' hw u r tag htag
          have key : (getStruct e rec st u tag).1 ≠ .error .recursionError := by
            unfold getStruct
            cases hs : dget st.structs tag with
            | some id => simp
            | none =>
              simp only [resolveAlias, hdd, if_true]
              cases hd2 : dget (e.defs (compKind u)) tag with
              | none => simp
              | some d =>
                cases d with
                | compound ms pack =>
                  simp only
                  generalize hst1 : ({ st with structs := dset st.structs tag st.classes.length,
                                               classes := st.classes ++ [⟨u, tag, pack, (nameMembers [] [] ms).2, none⟩] } : CtState) = st1
                  have s1 : st1.structs = dset st.structs tag st.classes.length := by rw [← hst1]
                  have hlt : openTags e st1 < openTags e st := by
                    refine filter_length_lt _ (fun x _ hx => ?_) tag ?_ ?_ ?_
                    · rw [s1, dget_dset] at hx
                      split at hx
                      · cases hx
                      · exact hx
                    · unfold dhas at hdd
                      rw [dget_isSome_iff] at hdd
                      cases u with
                      | false => exact List.mem_append_left _ hdd
                      | true => exact List.mem_append_right _ hdd
                    · rw [s1]; simp
                    · rw [hs]; rfl
                  have := ends_members hk k ((nameMembers [] [] ms).1.zip ms) (fun x hx => by
                    obtain ⟨n, m⟩ := x
                    exact hm u tag ms pack m hd2 (List.of_mem_zip hx).2) st1 (by omega)
                  cases hmc : memberClasses rec st1 ((nameMembers [] [] ms).1.zip ms) with
                  | mk r st2 =>
                    rw [hmc] at this
                    cases r with
                    | error x => simpa using this
                    | ok fs =>
                      simp only
                      cases hck : checkFields (nameMembers [] [] ms).2 fs with
                      | error x =>
                        unfold checkFields at hck
                        split at hck
                        · cases hck; simp
                        · split at hck <;> cases hck; simp
                      | ok _ => simp
                | _ => simp
          cases hg : getStruct e rec st u tag with
          | mk res st1 =>
            rw [hg] at key
            cases res with
            | error x => simpa using key
            | ok c => simp
      · rw [if_neg hst]
        split
        · simp
        · split
          · simp
          · simp

/-- With no tag left, `baseCls` does not build structs. -/
theorem ends_base0 (hw : TagsOk e) (t : CType) (st : CtState) (ho : openTags e st = 0) :
    (baseCls e rec true st t).1 ≠ .error .recursionError := by
  unfold baseCls
  simp only [if_true]
  cases specialCls t with
  | some x => simp
  | none =>
    simp only
    cases dget e.types t.spec with
    | some p => simp
    | none =>
      simp only
      by_cases hst : (startsWith t.spec c%"struct " || startsWith t.spec c%"union ") = true
      · rw [if_pos hst]
        obtain ⟨u, r, hsr, hu⟩ := comp_split hst
        rw [hu]
        cases htag : resolveAlias.tagOf e t.spec with
        | error x =>
          simp only
          intro hx
          injection hx with hx; subst hx
          unfold resolveAlias.tagOf at htag
          split at htag
          · cases htag
          · split at htag <;> cases htag
        | ok tag =>
          simp only
          rw [hsr] at htag
          obtain ⟨rfl, hdd⟩ := tagOf_tag' hw u r tag htag
          have hreg : ∃ id, dget st.structs tag = some id := by
            cases hs : dget st.structs tag with
            | some id => exact ⟨id, rfl⟩
            | none =>
              unfold openTags at ho
              have : tag ∈ (dkeys (e.defs .structs) ++ dkeys (e.defs .unions)).filter
                  (fun t => (dget st.structs t).isNone) := by
                rw [List.mem_filter]
                refine ⟨?_, by rw [hs]; rfl⟩
                unfold dhas at hdd
                rw [dget_isSome_iff] at hdd
                cases u with
                | false => exact List.mem_append_left _ hdd
                | true => exact List.mem_append_right _ hdd
              rw [List.length_eq_zero_iff] at ho
              rw [ho] at this
              cases this
          obtain ⟨id, hid⟩ := hreg
          unfold getStruct
          simp [hid]
      · rw [if_neg hst]
        split
        · simp
        · split
          · simp
          · simp

theorem exists_max {α : Type} (Q : α → Nat → Prop) (l : List α) (h : ∀ x ∈ l, ∃ N, ∀ n, N ≤ n → Q x n) :
    ∃ N, ∀ x ∈ l, ∀ n, N ≤ n → Q x n := by
  induction l with
  | nil => exact ⟨0, by simp⟩
  | cons x l ih =>
    obtain ⟨N1, h1⟩ := h x (by simp)
    obtain ⟨N2, h2⟩ := ih (fun y hy => h y (List.mem_cons_of_mem _ hy))
    refine ⟨max N1 N2, fun y hy n hn => ?_⟩
    rcases List.mem_cons.1 hy with rfl | hy
    · exact h1 n (by omega)
    · exact h2 y hy n (by omega)

/-- The members of all structs and unions. -/
def allMembers (e : CtEnv) : List Member :=
  [false, true].flatMap fun u => (dkeys (e.defs (compKind u))).flatMap fun tag =>
    match dget (e.defs (compKind u)) tag with
    | some (.compound ms _) => ms
    | _ => []

theorem allMembers_iff {m : Member} : m ∈ allMembers e ↔
    ∃ u tag ms pack, dget (e.defs (compKind u)) tag = some (.compound ms pack) ∧ m ∈ ms := by
  unfold allMembers
  simp only [List.mem_flatMap]
  constructor
  · rintro ⟨u, _, tag, _, h⟩
    split at h
    · rename_i ms pack e
      exact ⟨u, tag, ms, pack, e, h⟩
    · cases h
  · rintro ⟨u, tag, ms, pack, h, hm⟩
    exact ⟨u, by cases u <;> simp, tag, dget_isSome_iff.1 (by rw [h]; rfl), by rw [h]; exact hm⟩

theorem mem_allMembers {u : Bool} {tag : Str} {ms : List Member} {pack : Option Nat} {m : Member}
    (h : dget (e.defs (compKind u)) tag = some (.compound ms pack)) (hm : m ∈ ms) : m ∈ allMembers e :=
  allMembers_iff.2 ⟨u, tag, ms, pack, h, hm⟩

theorem mergeLoop_fn (ms : List CMod) : ∀ (h : Int → List (Option Int)) (seen : CMod) (ps : List Param),
    .fn ps ∈ (mergeLoop h seen ms).1 → .fn ps ∈ seen :: ms := by
  induction ms with
  | nil => intro h seen ps hm; simpa [mergeLoop] using hm
  | cons m ms ih =>
    intro h seen ps hm
    rw [mergeLoop.eq_def] at hm
    simp only at hm
    split at hm
    · have := ih _ _ _ hm
      rcases List.mem_cons.1 this with h | h
      · simp [h]
      · exact List.mem_cons_of_mem _ (List.mem_cons_of_mem _ h)
    · rcases List.mem_cons.1 hm with h | h
      · simp [h]
      · exact List.mem_cons_of_mem _ (ih _ _ _ h)

theorem mergeMods_fn (h : Int → List (Option Int)) (ms : List CMod) (ps : List Param)
    (hm : .fn ps ∈ (mergeMods h ms).1) : .fn ps ∈ ms := by
  cases ms with
  | nil => simp [mergeMods] at hm
  | cons m ms => exact mergeLoop_fn ms h m ps hm

theorem ends_step (hw : TagsOk e) (hmap : MapMatch e.tm) (k : Nat)
    (hbase : ∃ N, ∀ n, N ≤ n → ∀ r st, openTags e st ≤ k → (baseCls e (getType e n) true st r).1 ≠ .error .recursionError)
    (t : CType) (ht : FiniteParams e t) : ∃ N, ∀ n, N ≤ n → Ends e k t (getType e n) := by
  obtain ⟨Nb, hb⟩ := hbase
  induction ht with
  | mk t hq _ ih =>
    cases hev : evalType e.cfg e.tm t with
    | error x =>
      refine ⟨1, fun n hn st _ => ?_⟩
      obtain ⟨n, rfl⟩ : ∃ m, n = m + 1 := ⟨n - 1, by omega⟩
      simp only [getType, hev]
      intro hx
      injection hx with hx
      rw [hx] at hev
      exact (C01_terminates _ _ _).1 hev
    | ok r =>
      obtain ⟨b, hres, hr⟩ := (C01_result _ _ t r hmap hq).1 hev
      obtain ⟨Np, hp⟩ := exists_max (fun (p : Param) n => Ends e k p.2.1 (getType e n))
        (b.mods.flatMap fun m => match m with | .fn ps => ps | _ => []) (by
          intro p hpm
          rw [List.mem_flatMap] at hpm
          obtain ⟨m, hm, hpm⟩ := hpm
          cases m with
          | fn ps => exact ih b ps p hres hm hpm
          | sym s => cases hpm
          | arr d => cases hpm)
      refine ⟨max Nb Np + 1, fun n hn st ho => ?_⟩
      obtain ⟨n, rfl⟩ : ∃ m, n = m + 1 := ⟨n - 1, by omega⟩
      simp only [getType, hev]
      have h1 := hb n (by omega) r st ho
      have k1 := keeps_base hw (keeps_getType hw n) true st r
      have hsub : ∀ c mods st1, baseCls e (getType e n) true st r = (.ok (c, mods), st1) → ∀ m ∈ mods, m ∈ r.mods := by
        intro c mods st1 h
        unfold baseCls at h
        simp only [if_true] at h
        cases hs : specialCls r with
        | some x =>
          rw [hs] at h
          obtain ⟨p, ms⟩ := x
          simp at h
          obtain ⟨⟨_, rfl⟩, _⟩ := h
          unfold specialCls at hs
          split at hs
          · rename_i s ms' hm
            split at hs
            · cases hpt : dget ptrTypes r.spec with
              | none => rw [hpt] at hs; cases hs
              | some q =>
                rw [hpt] at hs
                simp at hs
                obtain ⟨_, rfl⟩ := hs
                intro m hmm
                rw [hm]; exact List.mem_cons_of_mem _ hmm
            · cases hs
          · cases hs
        | none =>
          simp only [hs] at h
          have : mods = r.mods := by
            split at h
            · simp at h; exact h.1.2.symm
            · split at h
              · split at h
                · simp at h
                · split at h
                  · simp at h
                  · simp at h; exact h.1.2.symm
              · split at h
                · simp at h; exact h.1.2.symm
                · split at h
                  · simp at h; exact h.1.2.symm
                  · simp at h
          rw [this]; exact fun m hm => hm
      cases hbc : baseCls e (getType e n) true st r with
      | mk res st1 =>
        rw [hbc] at h1 k1
        cases res with
        | error x => simpa using h1
        | ok cm =>
          obtain ⟨c, mods⟩ := cm
          simp only
          have hms := hsub c mods st1 hbc
          refine ends_apply (e := e) (keeps_getType hw n) _ k _ _ _ _ (Nat.le_refl _) (Nat.le_trans (openTags_keeps (st' := { st1 with heap := _ }) k1) ho) ?_
          intro ps p hf hpp
          have hf' : .fn ps ∈ r.mods := hms _ (mergeMods_fn _ _ _ hf)
          rw [hr] at hf'
          refine hp p ?_ n (by omega)
          rw [List.mem_flatMap]
          exact ⟨_, hf', hpp⟩

/-- Struct and union members, parameters and typedefs: `getType` ends with enough fuel. -/
theorem ends_getType (hw : TagsOk e) (hmap : MapMatch e.tm)
    (hf : ∀ m ∈ allMembers e, FiniteParams e m.type) (k : Nat) :
    ∀ t, FiniteParams e t → ∃ N, ∀ n, N ≤ n → Ends e k t (getType e n) := by
  induction k with
  | zero =>
    exact fun t ht => ends_step hw hmap 0 ⟨0, fun n _ r st ho => ends_base0 hw r st (by omega)⟩ t ht
  | succ k ih =>
    obtain ⟨N, hN⟩ := exists_max (fun (m : Member) n => Ends e k m.type (getType e n)) (allMembers e)
      (fun m hm => ih m.type (hf m hm))
    refine fun t ht => ends_step hw hmap (k + 1) ⟨N, fun n hn r st ho => ?_⟩ t ht
    exact ends_base hw (keeps_getType hw n) k r st ho
      (fun u tag ms pack m hd hm => hN m (mem_allMembers hd hm) n hn)

end

end Pyclib
