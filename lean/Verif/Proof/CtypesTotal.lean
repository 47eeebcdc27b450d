import Verif.Proof.CtypesMore
/-
Every C type that ctypes has a class for gets one: lemmas behind C47.
-/
namespace Pyclib
open Spec

/-- `b` can be built, or a pointer to it if it is a function. -/
def Good (types : Dict Str Str) (known : Bool → Str → Prop) (b : CTy) : Prop :=
  if b.isFn then Buildable types known (.ptr b) else Buildable types known b

section
variable {types : Dict Str Str} {known : Bool → Str → Prop}

theorem buildable_notFn {b : CTy} (h : Buildable types known b) : b.isFn = false := by
  cases h <;> rfl

theorem good_of {b : CTy} (h : Buildable types known b) : Good types known b := by
  unfold Good; rw [buildable_notFn h]; exact h

theorem good_ptr {b : CTy} (h : Good types known (.ptr b)) : Good types known b := by
  have h' : Buildable types known (.ptr b) := h
  unfold Good
  cases hb : b.isFn with
  | true => exact h'
  | false =>
    cases h' with
    | ptr _ h => exact h
    | fnptr => cases hb

theorem good_ref {b : CTy} (h : Good types known (.ref b)) : Good types known b := by
  have h' : Buildable types known (.ref b) := h
  cases h' with
  | ref _ h => exact good_of h

theorem good_arr {d : Option Int} {b : CTy} (h : Good types known (.arr d b)) : Good types known b := by
  have h' : Buildable types known (.arr d b) := h
  cases h' with
  | arr _ _ _ _ h => exact good_of h
  | incomplete _ h => exact good_of h

theorem good_arrs {ds : List (Option Int)} {b : CTy} (h : Good types known (arrsOf ds b)) : Good types known b := by
  induction ds with
  | nil => exact h
  | cons d ds ih => exact ih (good_arr h)

theorem good_fn {cs : List (Option Str × CTy)} {b : CTy} (h : Good types known (.fn cs b)) : Good types known b := by
  have h' : Buildable types known (.ptr (.fn cs b)) := h
  cases h' with
  | ptr _ h => cases h
  | fnptr _ _ h => exact good_of h

theorem good_mods {cfg : Cfg} {tm : Dict Str CType} {dim : Int → Option Int} {b v : CTy} {l : List CMod}
    (h : MeansMods cfg tm dim b l v) (hv : Good types known v) : Good types known b := by
  refine MeansMods.rec (motive_1 := fun b l v _ => Good types known v → Good types known b)
    (motive_2 := fun _ _ _ => True) (motive_3 := fun _ _ _ => True) ?_ ?_ ?_ ?_ ?_ ?_ ?_ ?_ ?_ ?_ h hv
  · intro b h; exact h
  · intro b ms v _ ih hv; exact good_ptr (ih hv)
  · intro b ms v _ ih hv; exact good_ref (ih hv)
  · intro c b ms v _ _ ih hv; exact ih hv
  · intro i is b ms v _ _ ih hv; exact good_arrs (ih hv)
  · intro ps cs b ms v _ _ _ ih hv; exact good_fn (ih hv)
  all_goals intros; trivial

theorem applyDim_total {S : Dict Str Nat} {c : Cls} {d : Option Int} {v : CTy} (h : Mirrors types S c v)
    (hb : Buildable types known (.arr d v)) : ∃ c', applyDim c d = .ok c' := by
  unfold applyDim
  by_cases hd : d = some (-1)
  · exact ⟨_, by rw [if_pos hd]⟩
  · rw [if_neg hd]
    cases hb with
    | incomplete => exact (hd rfl).elim
    | arr n _ hn hv _ =>
      have : ¬ n < 0 := by omega
      cases c with
      | void => exact (hv (mirrors_void h)).elim
      | _ => exact ⟨_, by simp only [mkArr, this, if_false]; rfl⟩

theorem applyDims_total {S : Dict Str Nat} {c : Cls} {ds : List (Option Int)} {v : CTy} (h : Mirrors types S c v)
    (hb : Good types known (arrsOf ds v)) : ∃ c', applyDims c ds.reverse = .ok c' := by
  induction ds with
  | nil => exact ⟨c, rfl⟩
  | cons d ds ih =>
    obtain ⟨c1, h1⟩ := ih (good_arr hb)
    have hb' : Buildable types known (.arr d (arrsOf ds v)) := hb
    obtain ⟨c2, h2⟩ := applyDim_total (mirrors_applyDims h h1) hb'
    refine ⟨c2, ?_⟩
    rw [List.reverse_cons, applyDims_append, h1]
    simp only [applyDims, h2]

end

section
variable {e : CtEnv} {own : Int → Owner} {dim : Int → Option Int}

/-- A class, or the fuel ran out. -/
def OkOrFuel {α : Type} (r : Except PyErr α) : Prop := (∃ a, r = .ok a) ∨ r = .error .recursionError

/-- `rec` builds what can be built. -/
def Total (e : CtEnv) (own : Int → Owner) (dim : Int → Option Int)
    (rec : CtState → CType → Except PyErr Cls × CtState) : Prop :=
  ∀ o t st v, TyOk e own o t → CtInv e own dim st → Clean dim st.heap t.mods →
    (∀ u tag j, o = .member u tag j → dget st.structs tag ≠ none) →
    Means e.cfg e.tm dim t v → Buildable e.types (KnownTag e) v → OkOrFuel (rec st t).1

theorem args_total {rec : CtState → CType → Except PyErr Cls × CtState} (hr : RecOk e own dim rec)
    (ht : Total e own dim rec) (ps : List Param) : ∀ (st : CtState) (vs : List (Option Str × CTy)),
    (∀ p ∈ ps, TyOk e own .shared p.2.1) → CtInv e own dim st → MeansParams e.cfg e.tm dim ps vs →
    (∀ x ∈ vs, Buildable e.types (KnownTag e) x.2) → OkOrFuel (argClasses rec st ps).1 := by
  induction ps with
  | nil => intro st vs _ _ _ _; exact .inl ⟨[], rfl⟩
  | cons p ps ih =>
    intro st vs hp hi hm hb
    have hp0 := hp p (by simp)
    obtain ⟨h1, h1c, h2⟩ := hr .shared p.2.1 st hp0 hi (clean_shared hi hp0) (by simp)
    cases hm with
    | cons n t d _ v vs' hv hvs =>
      have h0 := ht .shared t st v hp0 hi (clean_shared hi hp0) (by simp) hv (hb (n, v) (by simp))
      simp only [argClasses]
      simp only at h1 h1c
      cases hc : rec st t with
      | mk r st1 =>
        rw [hc] at h1 h1c h0
        cases r with
        | error x =>
          rcases h0 with ⟨a, h0⟩ | h0
          · cases h0
          · right; simpa using h0
        | ok c =>
          simp only
          have := ih st1 vs' (fun q hq => hp q (by simp [hq])) (h1.inv hi h1c (by simp)) hvs (fun x hx => hb x (by simp [hx]))
          cases ha : argClasses rec st1 ps with
          | mk r2 st2 =>
            rw [ha] at this
            cases r2 with
            | error x =>
              rcases this with ⟨a, h⟩ | h
              · cases h
              · right; simpa using h
            | ok cs => exact .inl ⟨_, rfl⟩

theorem mkFn_total {types : Dict Str Str} {S : Dict Str Nat} (std : Bool) (c : Cls) {args : List Cls}
    {cs : List (Option Str × CTy)}
    (h : MirrorsArgs types S args cs) (hv : ∀ x ∈ cs, x.2 ≠ .base c%"void") : ∃ c', mkFn std c args = .ok c' := by
  unfold mkFn
  have : args.any Cls.isVoid = false := by
    refine MirrorsArgs.rec (motive_1 := fun _ _ _ => True) (motive_2 := fun args cs _ =>
      (∀ x ∈ cs, x.2 ≠ CTy.base c%"void") → args.any Cls.isVoid = false)
      ?_ ?_ ?_ ?_ ?_ ?_ ?_ ?_ ?_ ?_ ?_ ?_ ?_ ?_ ?_ h hv
    case refine_14 => intro _; rfl
    case refine_15 =>
      intro c n v cls cs hm _ _ ih hv
      simp only [List.any_cons, Bool.or_eq_false_iff]
      refine ⟨?_, ih (fun x hx => hv x (by simp [hx]))⟩
      cases c with
      | void => exact (hv (n, v) (by simp) (mirrors_void hm)).elim
      | _ => rfl
    all_goals intros; trivial
  rw [this]
  exact ⟨_, rfl⟩

theorem applyMods_total {rec : CtState → CType → Except PyErr Cls × CtState} (hr : RecOk e own dim rec)
    (ht : Total e own dim rec) (n : Nat) :
    ∀ (st : CtState) (c : Cls) (mm l : List CMod) (b v : CTy), Merged dim st.heap mm l → mm.length ≤ n →
    FnPtrs e.cfg.win32 l →
    (∀ ps p, .fn ps ∈ l → p ∈ ps → TyOk e own .shared p.2.1) → CtInv e own dim st →
    (∀ i ∈ idsOf l, ∀ u tag j, own i = .member u tag j → dget st.structs tag ≠ none) →
    Mirrors e.types st.structs c b → b.isFn = false →
    (∀ s, b = .base s → specialPtr s ≠ none → l.head? ≠ some (.sym c%"*")) →
    MeansMods e.cfg e.tm dim b l v → Buildable e.types (KnownTag e) v →
    OkOrFuel (applyMods e.cfg.win32 rec n st c mm).1 := by
  induction n with
  | zero =>
    intro st c mm l b v hm hlen _ _ hi _ _ _ _ _ _
    have : mm = [] := by cases mm with
      | nil => rfl
      | cons => simp at hlen
    subst this
    exact .inl ⟨c, by simp [applyMods]⟩
  | succ n ih =>
    intro st c mm l b v hm hlen hf hp hi hid hb hfn hsp hv hbv
    cases hm with
    | nil => exact .inl ⟨c, by simp [applyMods]⟩
    | run i is mm l hhi hl hmr =>
      simp only [applyMods]
      have hf' : FnPtrs e.cfg.win32 l := by
        have : ∀ (js : List Int), FnPtrs e.cfg.win32 (js.map (fun i => .arr [some i]) ++ l) → FnPtrs e.cfg.win32 l := by
          intro js
          induction js with
          | nil => exact id
          | cons j js ih => exact fun h => ih h
        exact this (i :: is) hf
      have hv' := meansMods_run hl hv
      obtain ⟨c1, hd⟩ := applyDims_total hb (good_mods hv' (good_of hbv))
      rw [hhi, hd]
      simp only
      exact ih st c1 mm l _ v hmr (by simp at hlen; omega) hf'
        (fun ps p hps => hp ps p (List.mem_append_right _ hps)) hi
        (fun i hi => hid i (by rw [mem_idsOf] at hi ⊢; exact List.mem_append_right _ hi))
        (mirrors_applyDims hb hd) rfl (fun s hs => by simp [arrsOf] at hs) hv' hbv
    | other m mm l hna hmr =>
      have hlen' : mm.length ≤ n := by simp at hlen; omega
      have hp' : ∀ ps p, .fn ps ∈ l → p ∈ ps → TyOk e own .shared p.2.1 :=
        fun ps p hps => hp ps p (List.mem_cons_of_mem _ hps)
      have hid' : ∀ i ∈ idsOf l, ∀ u tag j, own i = .member u tag j → dget st.structs tag ≠ none :=
        fun i hi => hid i (by rw [mem_idsOf] at hi ⊢; exact List.mem_cons_of_mem _ hi)
      cases m with
      | arr d => exact (hna d rfl).elim
      | sym s =>
        rcases hf.1 with rfl | rfl
        · simp only [applyMods, List.length_cons, List.length_nil, Nat.zero_add, ptrTimes_one]
          rw [if_pos (by simp)]
          refine ih st (mkPtr c) mm l (.ptr b) v hmr hlen' hf.2 hp' hi hid' (mirrors_mkPtr hb ⟨hfn, fun s hs => ?_⟩) rfl
            (by simp) (meansMods_ptr hv) hbv
          cases hsp' : specialPtr s with
          | none => rfl
          | some p => exact (hsp s hs (by rw [hsp']; simp) rfl).elim
        · simp only [applyMods, List.length_cons, List.length_nil, Nat.zero_add, ptrTimes_one]
          rw [if_pos (by simp)]
          exact ih st (mkPtr c) mm l (.ref b) v hmr hlen' hf.2 hp' hi hid' (mirrors_mkRef hb) rfl
            (by simp) (meansMods_ref hv) hbv
      | fn ps =>
        have hps : ∀ p ∈ ps, TyOk e own .shared p.2.1 := fun p hpp => hp ps p (by simp) hpp
        -- the modifiers after the function
        have hsplit : ∃ std mrest rest, findPtr 2 false false mm = (true, std, mrest) ∧ Merged dim st.heap mrest rest ∧
            FnPtrs e.cfg.win32 rest ∧ (std = true → e.cfg.win32 = true) ∧ mrest.length ≤ n ∧ mm ≠ [] ∧
            (∀ ps, .fn ps ∈ rest → .fn ps ∈ l) ∧ (∀ i ∈ idsOf rest, i ∈ idsOf l) ∧
            (∀ b v, MeansMods e.cfg e.tm dim b l v → MeansMods e.cfg e.tm dim (.ptr b) rest v) := by
          obtain ⟨std, rest, hfl, h2, _, hstd, h4⟩ := findPtr_fn hf
          rcases h4 with ⟨cv, hcv, rfl⟩ | rfl
          · obtain ⟨m1, rfl, hm1⟩ := merged_cons_sym hmr
            obtain ⟨m2, rfl, hm2⟩ := merged_cons_sym hm1
            refine ⟨cv == c%"__stdcall", m2, rest, ?_, hm2, h2, ?_, ?_, by simp, ?_, ?_, ?_⟩
            · rw [findPtr_conv hcv, findPtr_star]; simp [findPtr]
            · rw [findPtr_conv hcv, findPtr_star] at hfl
              simp [findPtr] at hfl
              intro h
              exact hstd (by rw [← hfl]; simpa using h)
            · simp at hlen'; omega
            · intro ps h; exact List.mem_cons_of_mem _ (List.mem_cons_of_mem _ h)
            · intro i h; rw [mem_idsOf] at h ⊢; exact List.mem_cons_of_mem _ (List.mem_cons_of_mem _ h)
            · intro b v h; exact meansMods_ptr (meansMods_conv hcv h)
          · obtain ⟨m1, rfl, hm1⟩ := merged_cons_sym hmr
            have hst : m1.head? ≠ some (.sym c%"*") ∧ ∀ c, m1.head? = some (.sym c) → isConv c = false := by
              have hh : ∀ s, m1.head? = some (.sym s) → rest.head? = some (.sym s) := by
                intro s hs
                cases hm1 with
                | nil => cases hs
                | other m mm l _ _ => simpa using hs
                | run => simp at hs
              have hfp : rest.head? ≠ some (.sym c%"*") := by
                rcases hf with ⟨_, _, h3⟩ | ⟨hc, _, _⟩
                · exact h3
                · simp at hc
              exact ⟨fun h => hfp (hh _ h), fun c h => fnPtrs_head_conv h2 c (hh c h)⟩
            refine ⟨false, m1, rest, ?_, hm1, h2, by simp, ?_, by simp, ?_, ?_, ?_⟩
            · rw [findPtr_star, findPtr_stop hst.1 hst.2]
            · simp at hlen'; omega
            · intro ps h; exact List.mem_cons_of_mem _ h
            · intro i h; rw [mem_idsOf] at h ⊢; exact List.mem_cons_of_mem _ h
            · intro b v h; exact meansMods_ptr h
        obtain ⟨std, mrest, rest, hfp, hmrest, hfr, hstd, hlr, hmne, hsub, hids, hmeans⟩ := hsplit
        have happ : applyMods e.cfg.win32 rec (n + 1) st c (.fn ps :: mm) =
            if std && !e.cfg.win32 then (.error .nameError, st)
            else match argClasses rec st ps with
              | (.error x, st) => (.error x, st)
              | (.ok args, st) =>
                match mkFn std c args with
                | .error x => (.error x, st)
                | .ok c => applyMods e.cfg.win32 rec n st c mrest := by
          cases mm with
          | nil => exact (hmne rfl).elim
          | cons m mm =>
            simp only [applyMods, hfp]
            rfl
        rw [happ, if_neg (by
          cases std with
          | false => simp
          | true => simp [hstd rfl])]
        obtain ⟨cs, hcs, hv'⟩ := meansMods_fn hv
        have hgood : Buildable e.types (KnownTag e) (.ptr (.fn cs b)) := good_mods hv' (good_of hbv)
        have hcsb : (∀ x ∈ cs, x.2 ≠ .base c%"void") ∧ ∀ x ∈ cs, Buildable e.types (KnownTag e) x.2 := by
          cases hgood with
          | ptr _ h => cases h
          | fnptr _ _ _ h1 h2 => exact ⟨h1, h2⟩
        obtain ⟨a1, a1c, a2⟩ := argClasses_ok hr ps st hps hi
        have a3 := args_total hr ht ps st cs hps hi hcs hcsb.2
        cases ha : argClasses rec st ps with
        | mk r st1 =>
          rw [ha] at a1 a1c a2 a3
          cases r with
          | error x =>
            rcases a3 with ⟨a, h⟩ | h
            · cases h
            · right; simpa using h
          | ok args =>
            simp only
            obtain ⟨c1, hk⟩ := mkFn_total std c (a2 args cs rfl hcs) hcsb.1
            rw [hk]
            simp only
            have hi1 : CtInv e own dim st1 := a1.inv hi a1c (by simp)
            have hm1 : Merged dim st1.heap mrest rest := by
              refine hmrest.heap fun i hir => a1.heap i ?_ ?_
              · by_cases hs : own i = .shared
                · exact .inl hs
                · exact .inr hs
              · intro u tag j ho
                exact .inl (hid' i (hids i hir) u tag j ho)
            have hc1 : c1 = .fn std c args := by
              unfold mkFn at hk
              split at hk
              · cases hk
              · simp at hk; exact hk.symm
            subst hc1
            exact ih st1 _ mrest rest (.ptr (.fn cs b)) v hm1 hlr hfr (fun ps p h => hp' ps p (hsub ps h)) hi1
              (fun i hir u tag j ho => grow_some a1.grow (hid' i (hids i hir) u tag j ho))
              (.fnptr std c args b cs (mirrors_mono a1.grow hb) (a2 args cs rfl hcs)) rfl (by simp) (hmeans _ _ hv') hbv

theorem members_total {rec : CtState → CType → Except PyErr Cls × CtState} (hr : RecOk e own dim rec)
    (htot : Total e own dim rec)
    (u : Bool) (tag : Str) (ms : List (Str × Member)) : ∀ (st : CtState) (k : Nat),
    (∀ j n m, ms[j]? = some (n, m) → TyOk e own (.member u tag (k + j)) m.type) → CtInv e own dim st →
    (∀ x ∈ ms, Clean dim st.heap x.2.type.mods) → dget st.structs tag ≠ none →
    (∀ x ∈ ms, ∃ v, Means e.cfg e.tm dim x.2.type v ∧ Buildable e.types (KnownTag e) v) →
    OkOrFuel (memberClasses rec st ms).1 := by
  induction ms with
  | nil => intro st k _ _ _ _ _; exact .inl ⟨[], rfl⟩
  | cons x ms ih =>
    obtain ⟨n, m⟩ := x
    intro st k ht hi hc hreg hb
    have ht0 : TyOk e own (.member u tag k) m.type := ht 0 n m rfl
    obtain ⟨h1, h1c, _⟩ := hr _ m.type st ht0 hi (hc (n, m) (by simp)) (by
      intro u' tag' j' he; cases he; exact hreg)
    obtain ⟨v, hv, hbv⟩ := hb (n, m) (by simp)
    have h0 := htot _ m.type st v ht0 hi (hc (n, m) (by simp)) (by
      intro u' tag' j' he; cases he; exact hreg) hv hbv
    simp only [memberClasses]
    cases hrec : rec st m.type with
    | mk r st1 =>
      rw [hrec] at h1 h1c h0
      cases r with
      | error x =>
        rcases h0 with ⟨a, h0⟩ | h0
        · cases h0
        · right; simpa using h0
      | ok c =>
        simp only
        have hi1 : CtInv e own dim st1 := h1.inv hi h1c (by
          intro u' tag' j' he; cases he; exact hreg)
        have hreg1 := grow_some h1.grow hreg
        have hc1 : ∀ x ∈ ms, Clean dim st1.heap x.2.type.mods := by
          intro x hx i hix
          have hx' := hc x (by simp [hx]) i hix
          obtain ⟨j, hj⟩ := List.getElem?_of_mem hx
          have hown := (ht (j + 1) x.1 x.2 (by simpa using hj)).1.owned i hix
          rw [h1.heap i ?_ ?_, hx']
          · right; rw [hown]; simp
          · intro u' tag' j' he
            rw [hown] at he; cases he
            exact .inl hreg
        have := ih st1 (k + 1) (fun j n' m' hj => by
          have := ht (j + 1) n' m' (by simpa using hj)
          have e : k + 1 + j = k + (j + 1) := by omega
          rw [e]; exact this) hi1 hc1 hreg1 (fun x hx => hb x (by simp [hx]))
        cases ha : memberClasses rec st1 ms with
        | mk r2 st2 =>
          rw [ha] at this
          cases r2 with
          | error x =>
            rcases this with ⟨a, h⟩ | h
            · cases h
            · right; simpa using h
          | ok cs => exact .inl ⟨_, rfl⟩

/-- An anonymous name belongs to a member without name, unless a member declares it. -/
theorem nameMembers_anon (ms : List Member) : ∀ (names anon : List Str) (j : Nat) (n : Str) (m : Member),
    ((nameMembers names anon ms).1.drop names.length)[j]? = some n → ms[j]? = some m → m.name = some n ∨ m.name = none := by
  induction ms with
  | nil => intro names anon j n m _ h; simp at h
  | cons x ms ih =>
    have pre : ∀ (ms : List Member) (names anon : List Str), (nameMembers names anon ms).1.take names.length = names := by
      intro ms
      induction ms with
      | nil => intro names anon; simp [nameMembers]
      | cons y ms ih =>
        intro names anon
        cases hy : y.name with
        | some n =>
          simp only [nameMembers, hy]
          have := ih (names ++ [n]) anon
          have := congrArg (List.take names.length) this
          simpa [List.take_take] using this
        | none =>
          simp only [nameMembers, hy]
          have := ih (names ++ [anonMember names]) (anon ++ [anonMember names])
          have := congrArg (List.take names.length) this
          simpa [List.take_take] using this
    intro names anon j n m h hm
    cases hx : x.name with
    | none =>
      cases j with
      | zero => simp at hm; subst hm; exact .inr hx
      | succ j =>
        simp only [nameMembers, hx] at h
        refine ih (names ++ [anonMember names]) (anon ++ [anonMember names]) j n m ?_ (by simpa using hm)
        rw [List.getElem?_drop] at h ⊢
        rw [← h]; congr 1; simp; omega
    | some y =>
      cases j with
      | zero =>
        simp at hm; subst hm
        left
        simp only [nameMembers, hx] at h
        have := pre ms (names ++ [y]) anon
        rw [List.getElem?_drop] at h
        have h2 : ((nameMembers (names ++ [y]) anon ms).1.take (names ++ [y]).length)[names.length]? = some n := by
          rw [List.getElem?_take]; simp; simpa using h
        rw [this] at h2
        simp at h2
        rw [hx, h2]
      | succ j =>
        simp only [nameMembers, hx] at h
        refine ih (names ++ [y]) anon j n m ?_ (by simpa using hm)
        rw [List.getElem?_drop] at h ⊢
        rw [← h]; congr 1; simp; omega

theorem anonLoop_form (pre : Str) (used : Str → Bool) (k : Nat) : ∀ n, ∃ j, anonLoop pre used k n = pre ++ natDigits j := by
  induction k with
  | zero => intro n; exact ⟨n, rfl⟩
  | succ k ih =>
    intro n
    rw [anonLoop]
    split
    · exact ih (n + 1)
    · exact ⟨n, rfl⟩

theorem nameMembers_form (ms : List Member) : ∀ (names anon : List Str),
    (∀ n ∈ anon, ∃ j, n = c%"anon_member" ++ natDigits j) →
    ∀ n ∈ (nameMembers names anon ms).2, ∃ j, n = c%"anon_member" ++ natDigits j := by
  induction ms with
  | nil => intro names anon h; exact h
  | cons m ms ih =>
    intro names anon h
    cases hm : m.name with
    | some n => simp only [nameMembers, hm]; exact ih _ _ h
    | none =>
      simp only [nameMembers, hm]
      refine ih _ _ fun n hn => ?_
      rcases List.mem_append.1 hn with hn | hn
      · exact h n hn
      · simp at hn; subst hn
        exact anonLoop_form _ _ _ _

theorem mirrors_comp {types : Dict Str Str} {S : Dict Str Nat} {u : Bool} {tag : Str} {c : Cls}
    (hn : ∀ u tag, dget types (compWord u ++ ' ' :: tag) = none)
    (h : Mirrors types S c (.base (compWord u ++ ' ' :: tag))) : ∃ id, c = .comp id := by
  generalize hs : CTy.base (compWord u ++ ' ' :: tag) = v at h
  cases h with
  | void => exfalso; simp at hs; cases u <;> simp [compWord] at hs
  | prim s p h => simp at hs; subst hs; rw [hn] at h; cases h
  | enum t => exfalso; simp at hs; cases u <;> simp [compWord] at hs
  | struct t id h => exact ⟨id, rfl⟩
  | union t id h => exact ⟨id, rfl⟩
  | _ => cases hs

theorem checkFields_total (hb : CtBuild e dim) {u : Bool} {tag : Str} {ms : List Member} {pack : Option Nat}
    (hd : dget (e.defs (compKind u)) tag = some (.compound ms pack)) {S : Dict Str Nat} {fs : List (Str × Cls × PVal)}
    (hf : FieldsOk e dim S ((nameMembers [] [] ms).1.zip ms) fs) :
    checkFields (nameMembers [] [] ms).2 fs = .ok () := by
  have hlen : (nameMembers [] [] ms).1.length = ms.length := by rw [nameMembers_length]; simp
  have key : ∀ f ∈ fs, f.2.1 ≠ .void ∧ (f.1 ∈ (nameMembers [] [] ms).2 → ∃ id, f.2.1 = .comp id) := by
    intro f hfm
    obtain ⟨j, hj⟩ := List.getElem?_of_mem hfm
    have hjl := (List.getElem?_eq_some_iff.1 hj).1
    have hzl : ((nameMembers [] [] ms).1.zip ms).length = ms.length := by rw [List.length_zip, hlen]; simp
    have hjm : j < ms.length := by rw [hf.1, hzl] at hjl; exact hjl
    obtain ⟨c, hc, hmir⟩ := hf.2 j (nameMembers [] [] ms).1[j] ms[j] (by
      rw [List.getElem?_eq_getElem (by omega), List.getElem_zip])
    rw [hj] at hc
    simp at hc; subst hc
    obtain ⟨v, hv, _, hnv, hanon, hnamed⟩ := hb.members u tag ms pack ms[j] hd (List.getElem_mem hjm)
    have hm := hmir v hv
    refine ⟨fun h => ?_, fun h => ?_⟩
    · simp only at h; subst h
      exact hnv (mirrors_void hm)
    · simp only at h ⊢
      have := nameMembers_anon ms [] [] j _ ms[j] (by
        simp only [List.length_nil, List.drop_zero]
        exact List.getElem?_eq_getElem (by omega)) (List.getElem?_eq_getElem hjm)
      rcases this with hn | hn
      · obtain ⟨k, hk⟩ := nameMembers_form ms [] [] (by simp) _ h
        exact (hnamed _ k hn hk).elim
      · obtain ⟨u', tag', rfl⟩ := hanon hn
        exact mirrors_comp hb.noTag hm
  unfold checkFields
  rw [if_neg, if_neg]
  · simp only [List.any_eq_true, not_exists, not_and, Bool.and_eq_true, decide_eq_true_eq]
    rintro f hfm ha
    obtain ⟨id, hid⟩ := (key f hfm).2 ha
    rw [hid]; simp
  · simp only [List.any_eq_true, not_exists, not_and]
    rintro f hfm
    have := (key f hfm).1
    cases hc : f.2.1 with
    | void => exact (this hc).elim
    | _ => simp [Cls.isVoid]

theorem struct_total {rec : CtState → CType → Except PyErr Cls × CtState} (hr : RecOk e own dim rec)
    (htot : Total e own dim rec) (hw : CtWorld e own) (hb : CtBuild e dim) (st : CtState) (u : Bool) (tag : Str)
    (hi : CtInv e own dim st) (hd : dhas (e.defs (compKind u)) tag = true) :
    OkOrFuel (getStruct e rec st u tag).1 := by
  unfold getStruct
  cases hs : dget st.structs tag with
  | some id => exact .inl ⟨_, rfl⟩
  | none =>
    simp only [resolveAlias, hd, if_true]
    cases hdd : dget (e.defs (compKind u)) tag with
    | none => unfold dhas at hd; rw [hdd] at hd; cases hd
    | some d =>
      obtain ⟨ms, pack, rfl⟩ := hb.comps u tag d hdd
      simp only
      generalize hst1 : ({ st with structs := dset st.structs tag st.classes.length,
                                   classes := st.classes ++ [⟨u, tag, pack, (nameMembers [] [] ms).2, none⟩] } : CtState) = st1
      have s1 : st1.structs = dset st.structs tag st.classes.length := by rw [← hst1]
      have c1 : st1.classes = st.classes ++ [⟨u, tag, pack, (nameMembers [] [] ms).2, none⟩] := by rw [← hst1]
      have e1 : st1.heap = st.heap := by rw [← hst1]
      have hgrow : ∀ tg id, dget st.structs tg = some id → dget st1.structs tg = some id := by
        intro tg id h
        rw [s1, dget_dset]
        split
        · rename_i he; subst he; rw [hs] at h; cases h
        · exact h
      have hreg : dget st1.structs tag = some st.classes.length := by rw [s1]; simp
      have hi1 : CtInv e own dim st1 := by
        have step1 : CtStep own (· = .shared) st st1 := by
          refine ⟨hgrow, fun id c h => ?_, fun i _ _ => by rw [e1]⟩
          refine ⟨c, ?_, rfl, rfl, fun _ _ => rfl⟩
          rw [c1, List.getElem?_append_left]
          · exact h
          · exact (List.getElem?_eq_some_iff.1 h).1
        refine step1.inv hi ⟨fun id c h => ?_, fun tg id h => ?_⟩ (by simp)
        · rw [c1, List.getElem?_append] at h
          split at h
          · obtain ⟨ms', h1, h2, h3⟩ := hi.cls.defn id c h
            exact ⟨ms', h1, h2, fun fs hf => fieldsOk_mono hgrow (h3 fs hf)⟩
          · have : c = ⟨u, tag, pack, (nameMembers [] [] ms).2, none⟩ := by
              have := List.mem_of_getElem? h
              simpa using this
            subst this
            exact ⟨ms, hdd, rfl, by simp⟩
        · rw [s1, dget_dset] at h
          split at h
          · rename_i he; subst he
            simp at h; subst h
            exact ⟨_, by rw [c1]; simp; rfl, rfl⟩
          · obtain ⟨c, hc, hn⟩ := hi.cls.tag tg id h
            refine ⟨c, ?_, hn⟩
            rw [c1, List.getElem?_append_left]
            · exact hc
            · exact (List.getElem?_eq_some_iff.1 hc).1
      have hms : ∀ (j : Nat) (n : Str) (m : Member), ((nameMembers [] [] ms).1.zip ms)[j]? = some (n, m) → ms[j]? = some m := by
        intro j n m hj
        rw [List.getElem?_zip_eq_some] at hj
        exact hj.2
      have hmem := hw.members u tag ms pack
      have h1 : ∀ (j : Nat) (n : Str) (m : Member), ((nameMembers [] [] ms).1.zip ms)[j]? = some (n, m) →
          TyOk e own (.member u tag (0 + j)) m.type := by
        intro j n m hj
        have := hmem j m hdd (hms j n m hj)
        simpa using this
      have h2 : ∀ x ∈ (nameMembers [] [] ms).1.zip ms, Clean dim st1.heap x.2.type.mods := by
        intro x hx i hix
        obtain ⟨j, hj⟩ := List.getElem?_of_mem hx
        have := hmem j x.2 hdd (hms j x.1 x.2 hj)
        rw [e1]
        exact hi.fresh i u tag j (this.1.owned i hix) hs
      have h3 := members_total hr htot u tag ((nameMembers [] [] ms).1.zip ms) st1 0 h1 hi1 h2 (by rw [hreg]; simp)
        (fun x hx => by
          obtain ⟨v, hv, hbv, _⟩ := hb.members u tag ms pack x.2 hdd (List.of_mem_zip (a := x.1) (b := x.2) hx).2
          exact ⟨v, hv, hbv⟩)
      obtain ⟨_, _, h4⟩ := memberClasses_ok hr u tag ((nameMembers [] [] ms).1.zip ms) st1 0 h1 hi1 h2 (by rw [hreg]; simp)
      cases hmc : memberClasses rec st1 ((nameMembers [] [] ms).1.zip ms) with
      | mk r st2 =>
        rw [hmc] at h3 h4
        cases r with
        | error x =>
          rcases h3 with ⟨a, h⟩ | h
          · cases h
          · right; simpa using h
        | ok fs =>
          simp only
          rw [checkFields_total hb hdd (h4 fs rfl)]
          exact .inl ⟨_, rfl⟩

theorem compWord_starts (u : Bool) (r : Str) :
    startsWith (compWord u ++ ' ' :: r) c%"struct " = !u ∧ startsWith (compWord u ++ ' ' :: r) c%"union " = u := by
  cases u <;> simp [compWord, startsWith]

theorem base_total {rec : CtState → CType → Except PyErr Cls × CtState} (hr : RecOk e own dim rec)
    (htot : Total e own dim rec) (hw : CtWorld e own) (hb : CtBuild e dim) (st : CtState) (t : CType)
    (hi : CtInv e own dim st) (hbt : Buildable e.types (KnownTag e) (.base t.spec)) :
    OkOrFuel (baseCls e rec true st t).1 := by
  unfold baseCls
  simp only [if_true]
  cases specialCls t with
  | some x => exact .inl ⟨_, rfl⟩
  | none =>
    simp only
    cases ht : dget e.types t.spec with
    | some p => exact .inl ⟨_, rfl⟩
    | none =>
      simp only
      have comp : ∀ u tag, t.spec = compWord u ++ ' ' :: tag → KnownTag e u tag →
          OkOrFuel (if (startsWith t.spec c%"struct " || startsWith t.spec c%"union ") = true then
            match resolveAlias.tagOf e t.spec with
            | .error x => (.error x, st)
            | .ok tag =>
              match getStruct e rec st (!startsWith t.spec c%"struct ") tag with
              | (.error x, st) => (.error x, st)
              | (.ok c, st) => (.ok (c, t.mods), st)
            else if startsWith t.spec c%"enum " then (.ok (.prim c%"c_int", t.mods), st)
            else if t.spec = c%"void" then (.ok (.void, t.mods), st)
            else (.error .keyError, st) : Except PyErr (Cls × List CMod) × CtState).1 := by
        intro u tag hs ⟨pt, hk⟩
        rw [hs]
        obtain ⟨s1, s2⟩ := compWord_starts u tag
        rw [s1, s2, if_pos (by cases u <;> rfl)]
        obtain ⟨hh, hdd⟩ := hw.tags u tag pt hk
        have htag : resolveAlias.tagOf e (compWord u ++ ' ' :: tag) = .ok tag := by
          unfold resolveAlias.tagOf
          rw [hk]
          cases hm : pt.mods with
          | nil => rw [hm] at hh; cases hh
          | cons m ms => rw [hm] at hh; simp at hh; subst hh; simp only [hm]
        rw [htag]
        simp only [Bool.not_not]
        have := struct_total hr htot hw hb st u tag hi hdd
        cases hg : getStruct e rec st u tag with
        | mk res st1 =>
          rw [hg] at this
          cases res with
          | error x =>
            rcases this with ⟨a, h⟩ | h
            · cases h
            · right; simpa using h
          | ok c => exact .inl ⟨_, rfl⟩
      generalize hgs : CTy.base t.spec = v at hbt
      cases hbt with
      | prim s p h => simp at hgs; subst hgs; rw [ht] at h; cases h
      | void =>
        simp at hgs; rw [hgs]
        exact .inl ⟨_, rfl⟩
      | enum tag =>
        simp at hgs; rw [hgs]
        refine .inl ⟨(.prim c%"c_int", t.mods), ?_⟩
        simp [startsWith]
      | struct tag h =>
        simp at hgs
        exact comp false tag (by rw [hgs]; rfl) h
      | union tag h =>
        simp at hgs
        exact comp true tag (by rw [hgs]; rfl) h
      | _ => cases hgs

theorem means_has_resolution (hw : CtWorld e own) (he : ∀ s pt, dget e.tm s = some pt → ∀ q ∈ pt.quals.getLast?, q ≠ none)
    {t : CType} {v : CTy} (h : Means e.cfg e.tm dim t v) : ∀ t2 : CType, t2.spec = t.spec → QualsMatch t2 →
    (∀ q ∈ t2.quals.head?, q ≠ none) → ∃ b, Resolves e.cfg e.tm t2 b := by
  refine Means.rec (motive_1 := fun _ _ _ _ => True) (motive_2 := fun _ _ _ => True)
    (motive_3 := fun t _ _ => ∀ t2 : CType, t2.spec = t.spec → QualsMatch t2 →
      (∀ q ∈ t2.quals.head?, q ≠ none) → ∃ b, Resolves e.cfg e.tm t2 b) ?_ ?_ ?_ ?_ ?_ ?_ ?_ ?_ ?_ ?_ h
  case refine_9 =>
    intro t v hf _ _ t2 hs _ _
    exact ⟨t2, .base (by rw [hs]; exact hf)⟩
  case refine_10 =>
    intro t pt b v hf hd _ _ ih _ t2 hs hq hh
    have hpg := hw.typedefs _ pt pt hd (.refl _)
    obtain ⟨t', ht'⟩ := splice_exists hpg.quals hq (he _ pt hd) hh
    obtain ⟨b', hb'⟩ := ih t' (splice_spec ht') (splice_qualsMatch hpg.quals hq ht') (splice_head ht' hpg.base)
    exact ⟨b', .step (by rw [hs]; exact hf) (by rw [hs]; exact hd) ht' hb'⟩
  all_goals intros; trivial

theorem finish_total {rec : CtState → CType → Except PyErr Cls × CtState} (hr : RecOk e own dim rec)
    (htot : Total e own dim rec)
    (o : Owner) (st : CtState) (c : Cls) (pre l : List CMod) (b v : CTy) (hi : CtInv e own dim st)
    (hrp : Refs pre) (hop : ∀ i ∈ idsOf pre, own i = .shared)
    (hrl : Refs l) (hol : ∀ i ∈ idsOf l, own i = o) (hnl : (idsOf l).Nodup) (hcl : Clean dim st.heap l)
    (hj : NoAdj (pre ++ l.take 1)) (hs : o = .shared → NoAdj (pre ++ l)) (hf : FnPtrs e.cfg.win32 (pre ++ l))
    (hp : ∀ ps p, .fn ps ∈ pre ++ l → p ∈ ps → TyOk e own .shared p.2.1)
    (hreg : ∀ u tag j, o = .member u tag j → dget st.structs tag ≠ none)
    (hmir : Mirrors e.types st.structs c b) (hbf : b.isFn = false)
    (hsp : ∀ s, b = .base s → specialPtr s ≠ none → (pre ++ l).head? ≠ some (.sym c%"*"))
    (hm : MeansMods e.cfg e.tm dim b (pre ++ l) v) (hbv : Buildable e.types (KnownTag e) v) :
    OkOrFuel (applyMods e.cfg.win32 rec (mergeMods st.heap (pre ++ l)).1.length
        { st with heap := (mergeMods st.heap (pre ++ l)).2 } c (mergeMods st.heap (pre ++ l)).1).1 := by
  rw [mergeMods_prepend st.heap pre l hj]
  simp only
  obtain ⟨m1, m2, m3⟩ := mergeMods_spec dim l st.heap hrl hnl hcl
  generalize hh2 : (mergeMods st.heap l).2 = h2 at *
  generalize hmm : (mergeMods st.heap l).1 = mm at *
  have hshared : ∀ i, own i = .shared → h2 i = st.heap i := by
    intro i hio
    by_cases hil : i ∈ idsOf l
    · have ho : o = .shared := (hol i hil).symm.trans hio
      have : NoAdj l := by
        intro a b x y hl
        exact hs ho a b (pre ++ x) y (by rw [hl]; simp)
      rw [m3 this]
    · exact m2 i hil
  have step1 : CtStep own (· = o) st { st with heap := h2 } := by
    refine ⟨fun _ _ h => h, fun _ c h => ⟨c, h, rfl, rfl, fun _ _ => rfl⟩, fun i hio _ => ?_⟩
    rcases hio with hio | hio
    · exact hshared i hio
    · exact m2 i (fun hil => hio (hol i hil))
  have hcls1 : ClsOk e dim { st with heap := h2 } := ⟨hi.cls.defn, hi.cls.tag⟩
  have hi1 : CtInv e own dim { st with heap := h2 } := step1.inv hi hcls1 (fun u tag j h => hreg u tag j h.symm)
  have hcp : Clean dim h2 pre := by
    intro i hip
    rw [hshared i (hop i hip), hi.shared i (hop i hip)]
  have hmg : Merged dim h2 (pre ++ mm) (pre ++ l) := merged_prepend pre hj hrp hcp m1
  exact applyMods_total hr htot (pre ++ mm).length { st with heap := h2 } c (pre ++ mm) (pre ++ l) b v hmg
    (Nat.le_refl _) hf hp hi1 (by
      intro i hil u tag j ho
      rw [idsOf_append, List.mem_append] at hil
      rcases hil with hil | hil
      · rw [hop i hil] at ho; cases ho
      · exact hreg u tag j ((hol i hil).symm.trans ho)) hmir hbf hsp hm hbv

theorem getType_total (hw : CtWorld e own) (hb : CtBuild e dim) (n : Nat) : Total e own dim (getType e n) := by
  induction n with
  | zero => intro o t st v _ _ _ _ _ _; exact .inr rfl
  | succ n htot =>
    intro o t st v ht hi hc hreg hv hbv
    have hr := getType_ok (dim := dim) hw n
    simp only [getType]
    have hres : ∃ b, Resolves e.cfg e.tm t b := means_has_resolution hw hb.ends hv t rfl ht.1.quals ht.1.base
    obtain ⟨b, hb'⟩ := hres
    have hev : evalType e.cfg e.tm t = .ok ⟨dropSigned b.spec, b.mods, b.quals⟩ :=
      (C01_result _ _ t _ hw.map ht.1.quals).2 ⟨b, hb', rfl⟩
    rw [hev]
    simp only
    obtain ⟨hfn, hsh, hpre⟩ := ht.1.res b hb'
    obtain ⟨pre, hbm, hprem⟩ := resolves_pre hb'
    have hj := hpre pre hbm
    have hv' := means_resolves hb' pre hbm hj v hv
    have hps : ∀ ps p, .fn ps ∈ b.mods → p ∈ ps → TyOk e own .shared p.2.1 := by
      intro ps p hf hp
      rw [hbm, List.mem_append] at hf
      rcases hf with hf | hf
      · obtain ⟨s, pt, hd, hm⟩ := hprem _ hf
        exact ⟨hw.typedefs s pt _ hd (.param _ _ ps p hm hp (.refl _)), fun ps' p' u hf' hp' hu =>
          hw.typedefs s pt _ hd (.param _ _ ps p hm hp (.param _ _ ps' p' hf' hp' hu))⟩
      · exact param_ok ht hf hp
    have hrp : Refs pre := by
      intro d hd
      obtain ⟨s, pt, hd', hm⟩ := hprem _ hd
      exact (hw.typedefs s pt pt hd' (.refl _)).refs d hm
    have hop : ∀ i ∈ idsOf pre, own i = .shared := by
      intro i hip
      rw [mem_idsOf] at hip
      obtain ⟨s, pt, hd', hm⟩ := hprem _ hip
      exact (hw.typedefs s pt pt hd' (.refl _)).owned i (mem_idsOf.2 hm)
    obtain ⟨b1, b2, b3⟩ := baseCls_ok hr hw st ⟨dropSigned b.spec, b.mods, b.quals⟩ hi
    have hbb : Buildable e.types (KnownTag e) (.base (dropSigned b.spec)) := good_mods hv' (good_of hbv)
    have b4 := base_total hr htot hw hb st ⟨dropSigned b.spec, b.mods, b.quals⟩ hi hbb
    cases hbc : baseCls e (getType e n) true st ⟨dropSigned b.spec, b.mods, b.quals⟩ with
    | mk res st1 =>
      rw [hbc] at b1 b2 b3 b4
      cases res with
      | error x =>
        rcases b4 with ⟨a, h⟩ | h
        · cases h
        · right; simpa using h
      | ok cm =>
        obtain ⟨c, mods⟩ := cm
        simp only
        have hi1 : CtInv e own dim st1 := b1.inv hi b2 (by simp)
        have hreg1 : ∀ u tag j, o = .member u tag j → dget st1.structs tag ≠ none :=
          fun u tag j h => grow_some b1.grow (hreg u tag j h)
        have hc1 : Clean dim st1.heap t.mods := by
          intro i hit
          have hio := ht.1.owned i hit
          rw [b1.heap i ?_ ?_, hc i hit]
          · by_cases hsh : own i = .shared
            · exact .inl hsh
            · exact .inr hsh
          · intro u tag j ho
            exact .inl (hreg u tag j (hio.symm.trans ho))
        rcases b3 c mods rfl with ⟨p, hsp, rfl, hm⟩ | ⟨rfl, hmir, hnsp⟩
        · -- dedicated pointer class
          simp only at hm hsp
          have hsplit : ∃ pre' l', mods = pre' ++ l' ∧ (∃ x, pre = x ++ pre') ∧ (∃ x, t.mods = x ++ l') ∧
              NoAdj (pre' ++ l'.take 1) := by
            rw [hbm] at hm
            cases pre with
            | nil =>
              refine ⟨[], mods, rfl, ⟨[], rfl⟩, ⟨[.sym c%"*"], hm⟩, ?_⟩
              intro a b x y hl
              have := congrArg List.length hl
              simp at this
              have : (List.take 1 mods).length ≤ 1 := by simp; omega
              simp at this
              omega
            | cons m pre' =>
              simp at hm
              exact ⟨pre', t.mods, hm.2.symm, ⟨[m], rfl⟩, ⟨[], rfl⟩, noAdj_tail hj⟩
          obtain ⟨pre', l', rfl, ⟨x, hx⟩, ⟨y, hy⟩, hj'⟩ := hsplit
          have memp : ∀ m ∈ pre', m ∈ pre := fun m h => by rw [hx]; simp [h]
          have meml : ∀ m ∈ l', m ∈ t.mods := fun m h => by rw [hy]; simp [h]
          rw [hm] at hv'
          exact finish_total hr htot o st1 (.prim p) pre' l' (.ptr (.base (dropSigned b.spec))) v hi1
            (fun d hd => hrp d (memp _ hd)) (fun i hip => hop i (by rw [mem_idsOf] at hip ⊢; exact memp _ hip))
            (fun d hd => ht.1.refs d (meml _ hd)) (fun i hil => ht.1.owned i (by rw [mem_idsOf] at hil ⊢; exact meml _ hil))
            (by have := ht.1.nodup; rw [hy, idsOf_append] at this; exact (List.nodup_append.1 this).2.1)
            (fun i hil => hc1 i (by rw [mem_idsOf] at hil ⊢; exact meml _ hil))
            hj' (fun ho => by have := hsh ho; rw [hm] at this; exact noAdj_tail this)
            (by rw [hm] at hfn; exact hfn.2)
            (fun ps p' hf hp => hps ps p' (by rw [hm]; exact List.mem_cons_of_mem _ hf) hp) hreg1
            (.special _ _ hsp) rfl (by simp) (meansMods_ptr hv') hbv
        · simp only at hmir hnsp
          have := finish_total hr htot o st1 c pre t.mods (.base (dropSigned b.spec)) v hi1 hrp hop ht.1.refs ht.1.owned
            ht.1.nodup hc1 hj (fun ho => by rw [← hbm]; exact hsh ho) (by rw [← hbm]; exact hfn) (by rw [← hbm]; exact hps)
            hreg1 hmir rfl (fun s hs => by cases hs; rw [← hbm]; exact hnsp) (by rw [← hbm]; exact hv') hbv
          rw [← hbm] at this
          exact this

end

end Pyclib
