import Verif.Proof.CtLib
/-! Lookups in the library of a header give the right objects. -/
namespace Pyclib
open Spec

/-- The types of the functions of a header. -/
abbrev hdrTypes (s : Store DefVal) : List CType := fnTypes (s.defs .functions)

/-- The functions of a header, with numbered lists. -/
abbrev hdrFns (s : Store DefVal) : Dict Str DefVal := numFns (lib s (hdrTypes s)).2.1 0 (s.defs .functions)

/-- The backend of the library of a header. -/
abbrev hdrEnv (cfg : Cfg) (types : Dict Str Str) (s : Store DefVal) : CtEnv := libEnv cfg types s (hdrTypes s)

/-- The states the backend of the library of a header can be in. -/
abbrev HdrReach (cfg : Cfg) (types : Dict Str Str) (s : Store DefVal) : List Nat → CtState → Prop :=
  CtReach (hdrEnv cfg types s) (libOwn s (hdrTypes s)) (libDim s (hdrTypes s))

/-- The library of a header. -/
abbrev hdrLib (cfg : Cfg) (types : Dict Str Str) (s : Store DefVal) (n : Nat) (exports : Str → Bool) (lock : Bool) : Lib CtObj CtState :=
  ctLib (hdrEnv cfg types s) (hdrFns s) n [] exports lock

/-- The library when it was just opened. -/
def hdrStart (s : Store DefVal) : LState CtObj CtState := .init (ctStart (lib s (hdrTypes s)).2.2)

section
variable {cfg : Cfg} {junk : Str → Str} {types : Dict Str Str} {s : Store DefVal} {exports : Str → Bool} {lock : Bool}

/-- A function of the header in the numbered table. -/
theorem fn_entry (hs : TablesWf cfg junk s) {f : Str} {r : CType} {ps : List Param} {q : List Qual}
    (hf : dget (s.defs .functions) f = some (.func (.func r ps q))) :
    ∃ k r', fnAt 0 (s.defs .functions) f = some k ∧ (r :: ps.map (·.2.1)) <+: (hdrTypes s).drop k ∧
      (lib s (hdrTypes s)).2.1[k]? = some r' ∧ dget (hdrFns s) f = some (.func (.func r' (libFn s (hdrTypes s) k ps) q)) := by
  obtain ⟨k, h1, _, h3, h4⟩ := fnAt_ok (lib s (hdrTypes s)).2.1 f r ps q (s.defs .functions) 0 (hdrTypes s) (by simp) hf
  have h0 : (hdrTypes s)[k]? = some r := by
    obtain ⟨t, ht⟩ := h3
    have := congrArg (fun l => l[0]?) ht
    simpa using this.symm
  obtain ⟨r', h5, _⟩ := top_ok (s := s) h0 (typeWf_deep (asked_wf hs (.result f r ps q hf))).arr
  refine ⟨k, r', h1, h3, h5, ?_⟩
  rw [h4, h5]; rfl

/-- A bound on the recursion that is enough for every usable definition. -/
structure Bound (cfg : Cfg) (types : Dict Str Str) (s : Store DefVal) (lock : Bool) (N : Nat) : Prop where
  pos : 1 ≤ N
  fns : ∀ f r ps q, Usable cfg types s .functions f → dget (hdrFns s) f = some (.func (.func r ps q)) →
    Steady N (fun n st => initFunc (hdrEnv cfg types s) n st r ps lock)
  tys : ∀ x t, IsName cfg x → Usable cfg types s .types x → dget ((hdrEnv cfg types s).defs .types) x = some (.type t) →
    Steady N (fun n st => getType (hdrEnv cfg types s) n st t)
  tags : ∀ u tag, dhas ((hdrEnv cfg types s).defs (compKind u)) tag = true → ∀ n st, N ≤ n →
    (getStruct (hdrEnv cfg types s) (getType (hdrEnv cfg types s) n) st u tag).1 ≠ .error .recursionError

theorem bound_exists (hs : TablesWf cfg junk s) (hl : LibOk cfg types s) (lock : Bool) : ∃ N, Bound cfg types s lock N := by
  have hw : CtWorld (hdrEnv cfg types s) (libOwn s (hdrTypes s)) := lib_world hs hl
  have hf := (lib_build (ts := hdrTypes s) hs hl).2
  obtain ⟨N1, h1⟩ := common (fun (x : Str × DefVal) N => ∀ r ps q, Usable cfg types s .functions x.1 →
      dget (hdrFns s) x.1 = some (.func (.func r ps q)) → Steady N (fun n st => initFunc (hdrEnv cfg types s) n st r ps lock))
    (fun x N M h hm r ps q h1 h2 => (h r ps q h1 h2).mono hm) (hdrFns s) (fun x _ => by
      obtain ⟨f, v⟩ := x
      simp only
      by_cases hd : ∃ r ps q, dget (s.defs .functions) f = some (.func (.func r ps q)) ∧ Usable cfg types s .functions f
      · obtain ⟨r, ps, q, hd, hu⟩ := hd
        obtain ⟨k, r', e1, e2, e3, e4⟩ := fn_entry hs hd
        obtain ⟨_, ⟨u, hr⟩, cs, hps⟩ := hu r ps q hd
        obtain ⟨t, ht⟩ := e2
        have h0 : (hdrTypes s)[k]? = some r := by
          have := congrArg (fun l => l[0]?) ht
          simpa using this.symm
        have hpre : ps.map (·.2.1) <+: (hdrTypes s).drop (k + 1) := by
          refine ⟨t, ?_⟩
          have := congrArg List.tail ht
          simpa using this
        have hwr := asked_wf hs (.result f r ps q hd)
        obtain ⟨r1, g1, g2⟩ := top_ok (s := s) h0 (typeWf_deep hwr).arr
        rw [e3] at g1; cases g1
        obtain ⟨ls, g3, _, _⟩ := wrapParams_lib hs hps (fun p hp => asked_wf hs (.param f r ps q p hd hp)) k hpre
        obtain ⟨N, hN⟩ := steady_init hw.tags hw.map hf r' (libFn s (hdrTypes s) k ps) (wrappable hs hwr g2 hr).finite (fun p hp => by
          obtain ⟨i, hi⟩ := List.mem_iff_getElem?.1 hp
          obtain ⟨_, _, _, h⟩ := wrapParams_get g3 i p hi
          exact h.finite) lock
        refine ⟨N, fun r ps q _ h => ?_⟩
        rw [e4] at h
        cases h
        exact hN
      · refine ⟨0, fun r ps q hu h => (hd ?_).elim⟩
        have : dhas (s.defs .functions) f = true := by rw [← numFns_has (lib s (hdrTypes s)).2.1 f _ 0]; unfold dhas; rw [h]; rfl
        unfold dhas at this
        cases hdd : dget (s.defs .functions) f with
        | none => rw [hdd] at this; cases this
        | some v =>
          obtain ⟨_, r, ps, qs, rfl, _⟩ := hs _ _ _ hdd
          exact ⟨r, ps, qs, rfl, hu⟩)
  obtain ⟨N2, h2⟩ := common (fun (x : Str × DefVal) N => ∀ t, IsName cfg x.1 → Usable cfg types s .types x.1 →
      dget ((hdrEnv cfg types s).defs .types) x.1 = some (.type t) → Steady N (fun n st => getType (hdrEnv cfg types s) n st t))
    (fun x N M h hm t h1 h2 h3 => (h t h1 h2 h3).mono hm) ((hdrEnv cfg types s).defs .types) (fun x _ => by
      obtain ⟨x, v⟩ := x
      simp only
      by_cases hd : ∃ t, dget ((hdrEnv cfg types s).defs .types) x = some (.type t) ∧ IsName cfg x ∧ Usable cfg types s .types x
      · obtain ⟨t, hd, hi, hu⟩ := hd
        rcases lib_types (ts := hdrTypes s) hs x with ⟨_, e⟩ | ⟨t0, t1, e1, e2, e3⟩
        · rw [e] at hd; cases hd
        · rw [e2] at hd; cases hd
          obtain ⟨v, ha⟩ := hu t0 hi e1
          obtain ⟨N, hN, _⟩ := steady_type hw.tags hw.map hf t (num_finite (e := ⟨cfg, s.defs, types⟩) (e' := hdrEnv cfg types s) rfl
            (lib_tm hs) ha.finite e3.num)
          refine ⟨N, fun t' _ _ h => ?_⟩
          rw [e2] at h; cases h
          exact hN
      · exact ⟨0, fun t hi hu h => (hd ⟨t, h, hi, hu⟩).elim⟩)
  have htag : ∀ u, ∃ N, ∀ tag, dhas ((hdrEnv cfg types s).defs (compKind u)) tag = true → ∀ n st, N ≤ n →
      (getStruct (hdrEnv cfg types s) (getType (hdrEnv cfg types s) n) st u tag).1 ≠ .error .recursionError := by
    intro u
    obtain ⟨N, h⟩ := common (fun (x : Str × DefVal) N => dhas ((hdrEnv cfg types s).defs (compKind u)) x.1 = true → ∀ n st, N ≤ n →
        (getStruct (hdrEnv cfg types s) (getType (hdrEnv cfg types s) n) st u x.1).1 ≠ .error .recursionError)
      (fun x N M h hm hd n st hn => h hd n st (by omega)) ((hdrEnv cfg types s).defs (compKind u)) (fun x _ => by
        by_cases hd : dhas ((hdrEnv cfg types s).defs (compKind u)) x.1 = true
        · obtain ⟨N, _, h⟩ := steady_struct hw.tags hw.map hf u x.1 hd
          exact ⟨N, fun _ => h⟩
        · exact ⟨0, fun h => (hd h).elim⟩)
    refine ⟨N, fun tag hd => ?_⟩
    have hd' := hd
    unfold dhas at hd'
    cases hdd : dget ((hdrEnv cfg types s).defs (compKind u)) tag with
    | none => rw [hdd] at hd'; cases hd'
    | some v => exact h (tag, v) (dget_some_mem hdd) hd
  obtain ⟨N3, h3⟩ := htag false
  obtain ⟨N4, h4⟩ := htag true
  refine ⟨max 1 (max (max N1 N2) (max N3 N4)), ⟨by omega, ?_, ?_, ?_⟩⟩
  · intro f r ps q hu hd
    exact (h1 (f, _) (dget_some_mem hd) r ps q hu hd).mono (by omega)
  · intro x t hi hu hd
    exact (h2 (x, _) (dget_some_mem hd) t hi hu hd).mono (by omega)
  · intro u tag hd n st hn
    cases u with
    | false => exact h3 tag hd n st (by omega)
    | true => exact h4 tag hd n st (by omega)

/-! ### The objects -/

theorem gives_mono {S S' : Dict Str Nat} (hk : ∀ tag id, dget S tag = some id → dget S' tag = some id) {k : Kind} {n : Str}
    {res : Except PyErr (LObj CtObj)} (h : Gives cfg types s exports S k n res) : Gives cfg types s exports S' k n res := by
  cases h with
  | kind k n h => exact .kind _ _ h
  | absent k n h1 h2 => exact .absent _ _ h1 h2
  | value n v h => exact .value _ _ h
  | enum n d h => exact .enum _ _ h
  | hidden f h hx => exact .hidden _ h hx
  | func f r ps q u cs g h hx hr hps hn hmr hma =>
    exact .func _ r ps q u cs g h hx hr hps hn (mirrors_mono hk hmr) (mirrorsArgs_mono hk hma)
  | typedef n t v c hi h hv hm => exact .typedef _ t v c hi h hv (mirrors_mono hk hm)
  | tagName n hi h => exact .tagName _ hi h
  | comp u tag id h hid => exact .comp u _ id h (hk _ _ hid)

theorem givesAttr_mono {S S' : Dict Str Nat} (hk : ∀ tag id, dget S tag = some id → dget S' tag = some id) {n : Str} {ks : List Kind}
    {res : Except PyErr (LObj CtObj)} (h : GivesAttr cfg types s exports S n ks res) : GivesAttr cfg types s exports S' n ks res := by
  induction h with
  | nil => exact .nil
  | skip k ks res h _ ih => exact .skip k ks res h ih
  | none k ks o res h hg ho _ ih => exact .none k ks o res h (gives_mono hk hg) ho ih
  | take k ks res h hg ho => exact .take k ks res h (gives_mono hk hg) ho

/-- Every class has its fields. -/
def Finished (st : CtState) : Prop := ∀ id, ¬ Unfin st id

/-- What always holds of a library: the state of the backend is a possible one, every type that was asked for
belongs to a function that was wrapped, every object that was made is right. -/
structure LibInv (cfg : Cfg) (types : Dict Str Str) (s : Store DefVal) (exports : Str → Bool) (st : LState CtObj CtState) : Prop where
  reach : ∃ ks, HdrReach cfg types s ks st.b ∧ ∀ j ∈ ks, ∃ f k r ps q, fnAt 0 (s.defs .functions) f = some k ∧
    dget (s.defs .functions) f = some (.func (.func r ps q)) ∧ k ≤ j ∧ j ≤ k + ps.length ∧ dhas (st.objs .functions) f = true
  objs : ∀ k n o, dget (st.objs k) n = some o → Gives cfg types s exports st.b.structs k n (.ok o)
  all : ∀ n o, dget st.all n = some o → GivesAttr cfg types s exports st.b.structs n attrOrder (.ok o)
  fin : Finished st.b

theorem start_inv : LibInv cfg types s exports (hdrStart s) :=
  ⟨⟨[], C70_start, by simp⟩, by simp [hdrStart, LState.init], by simp [hdrStart, LState.init],
    by rintro id ⟨c, h, _⟩; simp [hdrStart, LState.init, ctStart] at h⟩

/-- A new object for kind `k` and name `n` with new backend state `b`. -/
theorem inv_add {st : LState CtObj CtState} (hi : LibInv cfg types s exports st) {b : CtState} (hk : Keeps st.b b) (hf : Finished b)
    {k : Kind} {n : Str} {o : LObj CtObj} (hg : Gives cfg types s exports b.structs k n (.ok o)) {ks : List Nat}
    (hr : HdrReach cfg types s ks b) (hks : ∀ j ∈ ks, ∃ f i r ps q, fnAt 0 (s.defs .functions) f = some i ∧
      dget (s.defs .functions) f = some (.func (.func r ps q)) ∧ i ≤ j ∧ j ≤ i + ps.length ∧
      (dhas (st.objs .functions) f = true ∨ k = .functions ∧ f = n)) :
    LibInv cfg types s exports { st with objs := (fun k' => if k' = k then dset (st.objs k) n o else st.objs k'), b := b } := by
  refine ⟨⟨ks, hr, fun j hj => ?_⟩, fun k' n' o' h => ?_, fun n' o' h => givesAttr_mono hk (hi.all n' o' h), hf⟩
  · obtain ⟨f, i, r, ps, q, h1, h2, h3, h4, h5⟩ := hks j hj
    refine ⟨f, i, r, ps, q, h1, h2, h3, h4, ?_⟩
    rcases h5 with h5 | ⟨rfl, rfl⟩
    · simp only
      split
      · rename_i he
        subst he
        unfold dhas at h5 ⊢
        rw [dget_dset]; split
        · rfl
        · exact h5
      · exact h5
    · simp only [if_true]
      unfold dhas; rw [dget_dset_self]; rfl
  · simp only at h
    split at h
    · rename_i he
      subst he
      rw [dget_dset] at h
      split at h
      · rename_i he; subst he; cases h; exact hg
      · exact gives_mono hk (hi.objs _ _ _ h)
    · exact gives_mono hk (hi.objs _ _ _ h)

theorem inv_state {st : LState CtObj CtState} (hi : LibInv cfg types s exports st) : ∃ ks, HdrReach cfg types s ks st.b ∧
    ∀ (k : Kind) (n : Str), ∀ j ∈ ks, ∃ f i r ps q, fnAt 0 (s.defs .functions) f = some i ∧
      dget (s.defs .functions) f = some (.func (.func r ps q)) ∧ i ≤ j ∧ j ≤ i + ps.length ∧
      (dhas (st.objs .functions) f = true ∨ k = .functions ∧ f = n) := by
  obtain ⟨ks, h1, h2⟩ := hi.reach
  refine ⟨ks, h1, fun k n j hj => ?_⟩
  obtain ⟨f, i, r, ps, q, g1, g2, g3, g4, g5⟩ := h2 j hj
  exact ⟨f, i, r, ps, q, g1, g2, g3, g4, .inl g5⟩

theorem initFunc_keeps (hw : TagsOk (hdrEnv cfg types s)) {n : Nat} {st st' : CtState} {r : CType} {ps : List Param} {g : CFunc}
    (h : initFunc (hdrEnv cfg types s) n st r ps lock = (.ok g, st')) : Keeps st st' ∧ NoNew st st' := by
  unfold initFunc at h
  simp only at h
  split at h
  · simp at h
  · cases h1 : getType (hdrEnv cfg types s) n st r with
    | mk x st1 =>
      rw [h1] at h
      cases x with
      | error x => simp at h
      | ok c =>
        simp only at h
        cases h2 : argClasses (getType (hdrEnv cfg types s) n) st1 (ps.filter (fun p => !isVoidParam p)) with
        | mk y st2 =>
          rw [h2] at h
          cases y with
          | error x => simp at h
          | ok cs =>
            simp only at h
            split at h
            · simp at h
            · simp at h
              rw [← h.2]
              refine ⟨?_, fun id hid => fin_getType n _ _ _ _ h1 id (fin_args (fin_getType n) _ _ _ _ h2 id hid)⟩
              have k1 := keeps_getType hw n st r
              have k2 := keeps_args (keeps_getType hw n) (ps.filter (fun p => !isVoidParam p)) st1
              rw [h1] at k1
              rw [h2] at k2
              exact k1.trans k2

/-- What `build` does for one kind: a right outcome, and what the invariant needs. -/
structure Built (cfg : Cfg) (types : Dict Str Str) (s : Store DefVal) (exports : Str → Bool) (st : LState CtObj CtState) (k : Kind) (n : Str)
    (res : Except PyErr (LObj CtObj) × CtState) : Prop where
  right : Gives cfg types s exports res.2.structs k n res.1
  keeps : Keeps st.b res.2
  new : NoNew st.b res.2
  reach : (∃ x, res.1 = .error x) ∧ res.2 = st.b ∨ (∃ o, res.1 = .ok o) ∧ ∃ ks, HdrReach cfg types s ks res.2 ∧ ∀ j ∈ ks, ∃ f i r ps q,
      fnAt 0 (s.defs .functions) f = some i ∧ dget (s.defs .functions) f = some (.func (.func r ps q)) ∧ i ≤ j ∧ j ≤ i + ps.length ∧
      (dhas (st.objs .functions) f = true ∨ k = .functions ∧ f = n)

theorem built_same {st : LState CtObj CtState} (hi : LibInv cfg types s exports st) {k : Kind} {n : Str} {r : Except PyErr (LObj CtObj)}
    (h : Gives cfg types s exports st.b.structs k n r) : Built cfg types s exports st k n (r, st.b) := by
  refine ⟨h, .refl _, fun _ h => h, ?_⟩
  cases r with
  | error x => exact .inl ⟨⟨x, rfl⟩, rfl⟩
  | ok o =>
    obtain ⟨ks, h1, h2⟩ := inv_state hi
    exact .inr ⟨⟨o, rfl⟩, ks, h1, h2 k n⟩

theorem build_func (hs : TablesWf cfg junk s) (hl : LibOk cfg types s) {N n : Nat} (hb : Bound cfg types s lock N) (hn : N ≤ n)
    {st : LState CtObj CtState} (hi : LibInv cfg types s exports st) {f : Str} (hd : dhas (s.defs .functions) f = true)
    (hu : Usable cfg types s .functions f) (hno : dget (st.objs .functions) f = none) :
    Built cfg types s exports st .functions f ((hdrLib cfg types s n exports lock).build .functions f st.b) := by
  cases hx : exports f with
  | false =>
    have : (hdrLib cfg types s n exports lock).build .functions f st.b = (.error .keyError, st.b) := by
      simp [Lib.build, ctLib, getFunction, hx]
    rw [this]
    exact built_same hi (.hidden f hd hx)
  | true =>
    unfold dhas at hd
    cases hdd : dget (s.defs .functions) f with
    | none => rw [hdd] at hd; cases hd
    | some v =>
      obtain ⟨_, r, ps, q, rfl, _⟩ := hs _ _ _ hdd
      obtain ⟨hcv, ⟨u, hr⟩, cs, hps⟩ := hu r ps q hdd
      obtain ⟨k, r', e1, e2, e3, e4⟩ := fn_entry hs hdd
      obtain ⟨ks, hre, hks⟩ := hi.reach
      have hfree : ∀ j, k ≤ j → j ≤ k + ps.length → j ∉ ks := by
        intro j h1 h2 hj
        obtain ⟨f', k', r1, ps', q', g1, g2, g3, g4, g5⟩ := hks j hj
        by_cases hne : f = f'
        · subst hne
          unfold dhas at g5; rw [hno] at g5; cases g5
        · rcases fnAt_disjoint hne e1 g1 hdd g2 with h | h <;> omega
      obtain ⟨r1, w1, N', g, st', ks', w2, w3, w4, w5, _, w6, w7⟩ :=
        C72_wrap_partial hs hl f r ps q hdd k e2 u hr hcv cs hps ks st.b hre hfree lock
      rw [e3] at w1; cases w1
      have hinit : initFunc (hdrEnv cfg types s) n st.b r' (libFn s (hdrTypes s) k ps) lock = (.ok g, st') := by
        rw [← w2 (max n N') (by omega)]
        exact hb.fns f _ _ _ hu e4 n (max n N') hn (by omega) st.b
      obtain ⟨k1, k2⟩ := initFunc_keeps (lib_world hs hl).tags hinit
      have : (hdrLib cfg types s n exports lock).build .functions f st.b = (.ok (.obj (.func f g)), st') := by
        simp only [Lib.build, ctLib, getFunction, hx, if_true]
        rw [e4]
        simp only
        rw [hinit]
      rw [this]
      refine ⟨.func f r ps q u cs g hdd hx hr.means hps w5 w6 w7, k1, k2, .inr ⟨⟨_, rfl⟩, ks', w3, fun j hj => ?_⟩⟩
      rcases w4 j hj with h | ⟨h1, h2⟩
      · obtain ⟨f', i, r1, ps', q', g1, g2, g3, g4, g5⟩ := hks j h
        exact ⟨f', i, r1, ps', q', g1, g2, g3, g4, .inl g5⟩
      · exact ⟨f, k, r, ps, q, e1, hdd, h1, h2, .inr ⟨rfl, rfl⟩⟩

theorem build_type (hs : TablesWf cfg junk s) (hl : LibOk cfg types s) {N n : Nat} (hb : Bound cfg types s lock N) (hn : N ≤ n)
    {st : LState CtObj CtState} (hi : LibInv cfg types s exports st) {x : Str} (hd : dhas (s.defs .types) x = true)
    (hu : Usable cfg types s .types x) :
    Built cfg types s exports st .types x ((hdrLib cfg types s n exports lock).build .types x st.b) := by
  rcases lib_types (ts := hdrTypes s) hs x with ⟨e, _⟩ | ⟨t, t', e1, e2, e3⟩
  · unfold dhas at hd; rw [e] at hd; cases hd
  · obtain ⟨n, rfl⟩ : ∃ m, n = m + 1 := ⟨n - 1, by have := hb.pos; omega⟩
    have hbd : (hdrLib cfg types s (n + 1) exports lock).build .types x st.b = match clsObj (getType (hdrEnv cfg types s) (n + 1) st.b t') with
        | (.ok o, b) => (.ok (.obj o), b)
        | (.error e, b) => (.error e, b) := by
      simp only [Lib.build, ctLib]
      rw [if_neg (by decide)]
      rw [show dget ((hdrEnv cfg types s).defs .types) x = some (.type t') from e2]
      simp only
      generalize clsObj (getType (hdrEnv cfg types s) (n + 1) st.b t') = y
      rcases y with ⟨_ | _, _⟩ <;> rfl
    rw [hbd]
    rcases types_cases hs e1 with ⟨hn', hw⟩ | ⟨w, tag, hw, rfl, rfl⟩
    · obtain ⟨v, ha⟩ := hu t hn' e1
      obtain ⟨ks, hre, hks⟩ := inv_state hi
      have hwld : CtWorld (hdrEnv cfg types s) (libOwn s (hdrTypes s)) := lib_world hs hl
      obtain ⟨hbu, hfin⟩ := lib_build (ts := hdrTypes s) hs hl
      have hto := typeOk_ty (types := types) hs e3 hw true (by simp) (hl.typedefs x t hn' e1).1
      obtain ⟨N', c, st', g1, g2⟩ := C47_built_partial hwld hbu hfin hre .shared t' hto (.inl rfl)
        (num_finite (e := ⟨cfg, s.defs, types⟩) (e' := hdrEnv cfg types s) rfl (lib_tm hs) ha.finite e3.num) v
        (lib_means hs e3 (typeWf_deep hw) ha.means) (buildable_mono (fun u tag => lib_known hs u tag) ha.build)
      have hgt : getType (hdrEnv cfg types s) (n + 1) st.b t' = (.ok c, st') := by
        rw [← g1 (max (n + 1) N') (by omega)]
        exact hb.tys x t' hn' hu e2 (n + 1) (max (n + 1) N') hn (by omega) st.b
      have hk := keeps_getType hwld.tags (n + 1) st.b t'
      have hr' := CtReach.shared ks st.b (n + 1) t' hre hto
      rw [hgt] at hk hr' ⊢
      exact ⟨.typedef x t v c hn' e1 ha.means g2, hk, fin_getType _ _ _ _ _ hgt, .inr ⟨⟨_, rfl⟩, ks, hr', hks _ _⟩⟩
    · have hspec : t'.spec = w := e3.num.spec
      have hev : evalType cfg (hdrEnv cfg types s).tm t' = .error .definitionError := by
        have hnf : isFund cfg t'.spec = false := by
          rw [hspec]
          exact isFund_word hl w hw
        unfold evalType evalAux
        rw [hnf]
        have hnone : dget (hdrEnv cfg types s).tm t'.spec = none := by
          rw [hspec]
          rcases lib_types (ts := hdrTypes s) hs w with ⟨_, e⟩ | ⟨t1, t2, e, _, _⟩
          · exact (typeTable_get _ _).2 e
          · rw [types_word hs w hw] at e; cases e
        simp [hnone]
      have hgt : getType (hdrEnv cfg types s) (n + 1) st.b t' = (.error .definitionError, st.b) := by
        rw [getType]
        simp only [hev]
      rw [hgt]
      refine built_same hi (.tagName _ (fun h => ?_) hd)
      exact name_not_tag h (by simp)

theorem build_comp (hs : TablesWf cfg junk s) (hl : LibOk cfg types s) {N n : Nat} (hb : Bound cfg types s lock N) (hn : N ≤ n)
    {st : LState CtObj CtState} (hi : LibInv cfg types s exports st) {u : Bool} {tag : Str} (hd : dhas (s.defs (compKind u)) tag = true) :
    Built cfg types s exports st (compKind u) tag ((hdrLib cfg types s n exports lock).build (compKind u) tag st.b) := by
  have hbd : (hdrLib cfg types s n exports lock).build (compKind u) tag st.b =
      match clsObj (getStruct (hdrEnv cfg types s) (getType (hdrEnv cfg types s) n) st.b u tag) with
        | (.ok o, b) => (.ok (.obj o), b)
        | (.error e, b) => (.error e, b) := by
    have h : (hdrLib cfg types s n exports lock).getStruct u tag st.b =
        clsObj (getStruct (hdrEnv cfg types s) (getType (hdrEnv cfg types s) n) st.b u tag) := rfl
    cases u <;>
    · simp only [Lib.build, compKind, h]
      generalize clsObj (getStruct (hdrEnv cfg types s) (getType (hdrEnv cfg types s) n) st.b _ tag) = y
      rcases y with ⟨_ | _, _⟩ <;> rfl
  rw [hbd]
  have hd' : dhas ((hdrEnv cfg types s).defs (compKind u)) tag = true := by
    rcases lib_comps (ts := hdrTypes s) hs u tag with ⟨e, _⟩ | ⟨ms, ms', pack, _, e, _⟩
    · unfold dhas at hd; rw [e] at hd; cases hd
    · unfold dhas; rw [show dget ((hdrEnv cfg types s).defs (compKind u)) tag = some _ from e]; rfl
  obtain ⟨ks, hre, hks⟩ := inv_state hi
  have hwld : CtWorld (hdrEnv cfg types s) (libOwn s (hdrTypes s)) := lib_world hs hl
  obtain ⟨hbu, hfin⟩ := lib_build (ts := hdrTypes s) hs hl
  have hinv := (ctReach_inv hwld hre).1
  have htot := struct_total (getType_ok hwld n) (getType_total hwld hbu n) hwld hbu st.b u tag hinv hd'
  rcases htot with ⟨c, hc⟩ | hc
  · obtain ⟨_, _, h3⟩ := getStruct_ok (getType_ok hwld n) hwld st.b u tag hinv hd'
    obtain ⟨id, rfl, hid⟩ := h3 c hc
    have hk := (keeps_struct (keeps_getType hwld.tags n) st.b u tag hd').1
    have hr' := CtReach.tag ks st.b n u tag hre hd'
    cases hg : getStruct (hdrEnv cfg types s) (getType (hdrEnv cfg types s) n) st.b u tag with
    | mk x st' =>
      rw [hg] at hc hk hr' hid
      simp only at hc
      subst hc
      exact ⟨.comp u tag id hd hid, hk, fin_struct (fin_getType n) _ _ _ _ _ hg, .inr ⟨⟨_, rfl⟩, ks, hr', hks _ _⟩⟩
  · exact (hb.tags u tag hd' n st.b hn hc).elim

theorem build_right (hs : TablesWf cfg junk s) (hl : LibOk cfg types s) {N n : Nat} (hb : Bound cfg types s lock N) (hn : N ≤ n)
    {st : LState CtObj CtState} (hi : LibInv cfg types s exports st) {k : Kind} (hk : k ∈ lookKinds) {x : Str} (hd : dhas (s.defs k) x = true)
    (hu : Usable cfg types s k x) (hno : dget (st.objs k) x = none) :
    Built cfg types s exports st k x ((hdrLib cfg types s n exports lock).build k x st.b) := by
  simp only [lookKinds, List.mem_cons, List.not_mem_nil, or_false] at hk
  rcases hk with rfl | rfl | rfl | rfl | rfl | rfl
  · unfold dhas at hd
    cases hdd : dget (s.defs .values) x with
    | none => rw [hdd] at hd; cases hd
    | some v =>
      obtain ⟨v, rfl⟩ := hs _ _ _ hdd
      have : (hdrLib cfg types s n exports lock).build .values x st.b = (.ok (.val v), st.b) := by
        simp only [Lib.build, ctLib]
        rw [if_neg (by decide)]
        rw [show dget ((hdrEnv cfg types s).defs .values) x = some (.value v) from hdd]
      rw [this]
      exact built_same hi (.value x v hdd)
  · exact build_func hs hl hb hn hi hd hu hno
  · exact build_type hs hl hb hn hi hd hu
  · exact build_comp (u := false) hs hl hb hn hi hd
  · exact build_comp (u := true) hs hl hb hn hi hd
  · have hd0 := hd
    unfold dhas at hd
    cases hdd : dget (s.defs .enums) x with
    | none => rw [hdd] at hd; cases hd
    | some v =>
      obtain ⟨_, v, rfl, _⟩ := hs _ _ _ hdd
      have : (hdrLib cfg types s n exports lock).build .enums x st.b = (.ok (.enum v), st.b) := by
        have e1 : (hdrLib cfg types s n exports lock).defs .enums = s.defs .enums := rfl
        simp only [Lib.build, Lib.getEnum, e1, hd0, hdd, if_true]
      rw [this]
      exact built_same hi (.enum x v hdd)

/-! ### Lookups -/

theorem defs_has (hs : TablesWf cfg junk s) (k : Kind) (x : Str) (n : Nat) :
    dhas ((hdrLib cfg types s n exports lock).defs k) x = dhas (s.defs k) x := by
  have key : ∀ k', k' ≠ .functions → (hdrLib cfg types s n exports lock).defs k' = (hdrEnv cfg types s).defs k' :=
    fun k' hne => if_neg hne
  cases k with
  | functions => exact numFns_has _ _ _ _
  | types =>
    rw [key _ (by decide)]
    rcases lib_types (ts := hdrTypes s) hs x with ⟨e, e'⟩ | ⟨t, t', e1, e2, _⟩
    · unfold dhas; rw [e, show dget ((hdrEnv cfg types s).defs .types) x = none from e']
    · unfold dhas; rw [e1, show dget ((hdrEnv cfg types s).defs .types) x = some _ from e2]; rfl
  | structs =>
    rw [key _ (by decide)]
    rcases lib_comps (ts := hdrTypes s) hs false x with ⟨e, e'⟩ | ⟨ms, ms', pack, e1, e2, _⟩
    · unfold dhas; rw [show dget (s.defs .structs) x = none from e, show dget ((hdrEnv cfg types s).defs .structs) x = none from e']
    · unfold dhas; rw [show dget (s.defs .structs) x = some _ from e1, show dget ((hdrEnv cfg types s).defs .structs) x = some _ from e2]; rfl
  | unions =>
    rw [key _ (by decide)]
    rcases lib_comps (ts := hdrTypes s) hs true x with ⟨e, e'⟩ | ⟨ms, ms', pack, e1, e2, _⟩
    · unfold dhas; rw [show dget (s.defs .unions) x = none from e, show dget ((hdrEnv cfg types s).defs .unions) x = none from e']
    · unfold dhas; rw [show dget (s.defs .unions) x = some _ from e1, show dget ((hdrEnv cfg types s).defs .unions) x = some _ from e2]; rfl
  | _ => rfl

theorem call_right (hs : TablesWf cfg junk s) (hl : LibOk cfg types s) {N n : Nat} (hb : Bound cfg types s lock N) (hn : N ≤ n)
    {st : LState CtObj CtState} (hi : LibInv cfg types s exports st) {k : Kind} {x : Str} (hf : FairLook cfg types s (.call k x)) :
    LibInv cfg types s exports ((hdrLib cfg types s n exports lock).call st k x).2 ∧
    Keeps st.b ((hdrLib cfg types s n exports lock).call st k x).2.b ∧
    Gives cfg types s exports ((hdrLib cfg types s n exports lock).call st k x).2.b.structs k x ((hdrLib cfg types s n exports lock).call st k x).1 := by
  unfold Lib.call
  split
  · rename_i hk
    exact ⟨hi, .refl _, .kind k x hk⟩
  · rename_i hk
    have hk : k ∈ lookKinds := Decidable.not_not.1 hk
    cases hno : dget (st.objs k) x with
    | some o => exact ⟨hi, .refl _, hi.objs k x o hno⟩
    | none =>
      have hmk : (hdrLib cfg types s n exports lock).makeObj st k x =
          if dhas (s.defs k) x = true then (hdrLib cfg types s n exports lock).build k x st.b else (.error .nameError, st.b) := by
        have hnm : (hdrLib cfg types s n exports lock).names x = [x] := rfl
        have hno' : dhas (st.objs k) x = false := by unfold dhas; rw [hno]; rfl
        unfold Lib.makeObj
        rw [hnm]
        simp only [List.any_cons, List.any_nil, hno', Bool.or_false, Bool.false_eq_true, if_false]
        have hcand : (hdrLib cfg types s n exports lock).candidate k x = dhas (s.defs k) x := by
          unfold Lib.candidate
          rw [defs_has hs, defs_has hs]
          cases hd : dhas (s.defs k) x with
          | true => rfl
          | false =>
            rw [Bool.false_or, Bool.and_eq_false_iff]
            by_cases hkk : k = .structs ∨ k = .unions ∨ k = .enums
            · exact .inr (hf.2 hkk hd)
            · exact .inl (by simpa using hkk)
        simp only [List.find?_cons, List.find?_nil, hcand]
        cases dhas (s.defs k) x <;> simp
      simp only [hmk]
      cases hd : dhas (s.defs k) x with
      | false =>
        simp only [Bool.false_eq_true, if_false]
        exact ⟨hi, .refl _, .absent k x hk hd⟩
      | true =>
        simp only [if_true]
        have hbt := build_right hs hl hb hn hi hk hd hf.1 hno
        cases hres : (hdrLib cfg types s n exports lock).build k x st.b with
        | mk res b =>
          rw [hres] at hbt
          obtain ⟨h1, h2, h3, h4⟩ := hbt
          have hfin : Finished b := fun id h => hi.fin id (h3 id h)
          cases res with
          | error y =>
            simp only at h1 h2 h4 ⊢
            rcases h4 with ⟨_, rfl⟩ | ⟨⟨_, h⟩, _⟩
            · exact ⟨hi, h2, h1⟩
            · cases h
          | ok o =>
            simp only at h1 h2 h4 ⊢
            rcases h4 with ⟨⟨_, h⟩, _⟩ | ⟨_, ks, h5, h6⟩
            · cases h
            · exact ⟨inv_add hi h2 hfin h1 h5 h6, h2, h1⟩

end

end Pyclib
