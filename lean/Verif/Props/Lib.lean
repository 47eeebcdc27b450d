import Verif.Model.Lib
/-
C37-C40: lookups in a `CLibrary`, one object per library path.
-/
set_option linter.unusedSimpArgs false
namespace Pyclib

variable {O B : Type}

/-! ### C37 -/

theorem call_cached (l : Lib O B) (st : LState O B) (k : Kind) (n : Str) (o : LObj O)
    (hk : k ∈ lookKinds) (h : dget (st.objs k) n = some o) : l.call st k n = (.ok o, st) := by
  simp [Lib.call, hk, h]

theorem call_result (l : Lib O B) (st st' : LState O B) (k : Kind) (n : Str) (o : LObj O)
    (h : l.call st k n = (.ok o, st')) : k ∈ lookKinds ∧ dget (st'.objs k) n = some o := by
  unfold Lib.call at h
  split at h
  · simp at h
  · rename_i hk
    have hk : k ∈ lookKinds := by simpa using hk
    refine ⟨hk, ?_⟩
    split at h
    · rename_i o' ho
      simp at h
      obtain ⟨rfl, rfl⟩ := h
      exact ho
    · split at h
      · simp at h
      · simp at h
        obtain ⟨rfl, rfl⟩ := h
        simp

theorem call_grows (l : Lib O B) (st : LState O B) (k k' : Kind) (n n' : Str) (o : LObj O)
    (h : dget (st.objs k') n' = some o) : dget ((l.call st k n).2.objs k') n' = some o := by
  unfold Lib.call
  split
  · exact h
  · split
    · exact h
    · rename_i hnone
      split
      · exact h
      · simp only
        split
        · rename_i hk
          subst hk
          rw [dget_dset]
          split
          · rename_i hn; subst hn; rw [hnone] at h; cases h
          · exact h
        · exact h

theorem call_all (l : Lib O B) (st : LState O B) (k : Kind) (n : Str) : (l.call st k n).2.all = st.all := by
  unfold Lib.call
  split
  · rfl
  · split
    · rfl
    · split <;> rfl

theorem attrLoop_grows (l : Lib O B) (name : Str) (ks : List Kind) (st : LState O B) (k' : Kind) (n' : Str)
    (o : LObj O) (h : dget (st.objs k') n' = some o) :
    dget ((l.attrLoop name st ks).2.objs k') n' = some o ∧ (l.attrLoop name st ks).2.all = st.all := by
  induction ks generalizing st with
  | nil => exact ⟨h, rfl⟩
  | cons k ks ih =>
    rw [Lib.attrLoop]
    split
    · exact ih st h
    · rename_i n hn
      have h1 := call_grows l st k k' n n' o h
      have h2 := call_all l st k n
      split
      · rename_i e st' hc
        rw [hc] at h1 h2
        exact ⟨h1, h2⟩
      · rename_i o' st' hc
        rw [hc] at h1 h2
        split
        · obtain ⟨a, b⟩ := ih st' h1
          exact ⟨a, by rw [b]; exact h2⟩
        · exact ⟨h1, h2⟩

theorem attrLoop_all (l : Lib O B) (name : Str) (ks : List Kind) (st : LState O B) :
    (l.attrLoop name st ks).2.all = st.all := by
  induction ks generalizing st with
  | nil => rfl
  | cons k ks ih =>
    rw [Lib.attrLoop]
    split
    · exact ih st
    · rename_i n hn
      have h2 := call_all l st k n
      split
      · rename_i e st' hc
        rw [hc] at h2
        exact h2
      · rename_i o' st' hc
        rw [hc] at h2
        split
        · rw [ih]; exact h2
        · exact h2

theorem getattr_result (l : Lib O B) (st st' : LState O B) (n : Str) (o : LObj O)
    (h : l.getattr st n = (.ok o, st')) : dget st'.all n = some o := by
  unfold Lib.getattr at h
  split at h
  · rename_i o' ho
    simp at h
    obtain ⟨rfl, rfl⟩ := h
    exact ho
  · split at h
    · simp at h
    · simp at h
      obtain ⟨rfl, rfl⟩ := h
      simp

theorem getattr_objs (l : Lib O B) (st : LState O B) (n : Str) (k' : Kind) (n' : Str) (o : LObj O)
    (h : dget (st.objs k') n' = some o) : dget ((l.getattr st n).2.objs k') n' = some o := by
  have := (attrLoop_grows l n lookKinds st k' n' o h).1
  unfold Lib.getattr
  split
  · exact h
  · split
    · rename_i hc; rw [hc] at this; exact this
    · rename_i hc; rw [hc] at this; exact this

theorem getattr_grows (l : Lib O B) (st : LState O B) (n n' : Str) (o : LObj O)
    (h : dget st.all n' = some o) : dget (l.getattr st n).2.all n' = some o := by
  have ha := attrLoop_all l n lookKinds st
  unfold Lib.getattr
  split
  · exact h
  · rename_i hnone
    split
    · rename_i hc; rw [hc] at ha; simp only at ha ⊢; rw [ha]; exact h
    · rename_i o' st' hc
      rw [hc] at ha
      simp only at ha ⊢
      rw [ha, dget_dset]
      split
      · rename_i hn; subst hn; rw [hnone] at h; cases h
      · exact h

/-- The result of a lookup is stored where the same lookup finds it. -/
def Stored (st : LState O B) (q : Look) (o : LObj O) : Prop :=
  match q with
  | .call k n => k ∈ lookKinds ∧ dget (st.objs k) n = some o
  | .attr n => dget st.all n = some o

theorem stored_step (l : Lib O B) (st : LState O B) (q q' : Look) (o : LObj O) (h : Stored st q o) :
    Stored (l.look st q').2 q o := by
  cases q with
  | call k n =>
    refine ⟨h.1, ?_⟩
    cases q' with
    | call k' n' => exact call_grows l st k' k n' n o h.2
    | attr n' => exact getattr_objs l st n' k n o h.2
  | attr n =>
    cases q' with
    | call k' n' =>
      show dget (l.call st k' n').2.all n = some o
      rw [call_all]; exact h
    | attr n' => exact getattr_grows l st n' n o h

/-- C37: once a lookup has succeeded, the same lookup returns the identical object, leaving all state
alone, whatever lookups (of any form, failing or not) happened in between. -/
theorem C37_same_object (l : Lib O B) (st st1 : LState O B) (q : Look) (o : LObj O)
    (h : l.look st q = (.ok o, st1)) (qs : List Look) :
    l.look (l.runLooks st1 qs) q = (.ok o, l.runLooks st1 qs) := by
  have h0 : Stored st1 q o := by
    cases q with
    | call k n => exact call_result l st st1 k n o h
    | attr n => exact getattr_result l st st1 n o h
  have h1 : ∀ qs (st1 : LState O B), Stored st1 q o → Stored (l.runLooks st1 qs) q o := by
    intro qs
    induction qs with
    | nil => intro st h; exact h
    | cons q' qs ih => intro st h; exact ih _ (stored_step l st q q' o h)
  have h2 := h1 qs st1 h0
  cases q with
  | call k n => exact call_cached l _ k n o h2.1 h2.2
  | attr n =>
    show l.getattr _ n = _
    unfold Lib.getattr
    rw [show dget (l.runLooks st1 qs).all n = some o from h2]

/-- C37: the object that `lib.name` finds is the one that `lib(kind, name)` returns, for the kind and the
full name it was found under. -/
theorem C37_attr_call (l : Lib O B) (st st1 : LState O B) (name : Str) (o : LObj O)
    (hnew : dget st.all name = none) (h : l.getattr st name = (.ok o, st1)) :
    ∃ k n, k ∈ lookKinds ∧ n ∈ l.names name ∧ dhas (l.defs k) n = true ∧ l.call st1 k n = (.ok o, st1) := by
  have key : ∀ ks st o st', (∀ k ∈ ks, k ∈ lookKinds) → l.attrLoop name st ks = (.ok o, st') →
      ∃ k n, k ∈ lookKinds ∧ n ∈ l.names name ∧ dhas (l.defs k) n = true ∧ dget (st'.objs k) n = some o := by
    intro ks
    induction ks with
    | nil => intro st o st' _ h; simp [Lib.attrLoop] at h
    | cons k ks ih =>
      intro st o st' hks h
      rw [Lib.attrLoop] at h
      split at h
      · exact ih st o st' (fun k hk => hks k (by simp [hk])) h
      · rename_i n hn
        split at h
        · simp at h
        · rename_i o' st'' hc
          split at h
          · exact ih st'' o st' (fun k hk => hks k (by simp [hk])) h
          · simp at h
            obtain ⟨rfl, rfl⟩ := h
            exact ⟨k, n, hks k (by simp), List.mem_of_find?_eq_some hn, List.find?_some hn, (call_result l _ _ _ _ _ hc).2⟩
  unfold Lib.getattr at h
  rw [hnew] at h
  simp only at h
  split at h
  · simp at h
  · rename_i o' st' hc
    simp at h
    obtain ⟨rfl, rfl⟩ := h
    obtain ⟨k, n, h1, h2, h3, h4⟩ := key lookKinds st _ st' (fun k hk => hk) hc
    exact ⟨k, n, h1, h2, h3, call_cached l _ k n _ h1 h4⟩

/-! ### Example library -/

/-- A library with prefix `p_`, whose backend numbers the objects it makes. -/
def exLib : Lib Nat Nat where
  defs := fun k => match k with
    | .values => [(c%"x", .value (.int 1)), (c%"p_x", .value (.int 2)), (c%"v", .value .none)]
    | .functions => [(c%"p_f", .func (.plain ⟨c%"int", [], [some []]⟩)), (c%"x", .func (.plain ⟨c%"int", [], [some []]⟩))]
    | _ => []
  prefixes := [c%"p_"]
  cfg := ⟨true, false, []⟩
  getFunction := fun _ n => (.ok n, n + 1)
  getType := fun _ n => (.ok n, n + 1)
  getStruct := fun _ _ n => (.ok n, n + 1)
  isNull := fun _ => false

/-- `lib.f` finds `p_f` and gives the same object as `lib('functions', 'p_f')`, before and after other
lookups. -/
example :
    let st := (exLib.look (LState.init 7) (.attr c%"f")).2
    (exLib.look (LState.init 7) (.attr c%"f")).1 = .ok (.obj 7) ∧
    (exLib.look (exLib.runLooks st [.call .functions c%"x", .attr c%"v", .attr c%"nope"]) (.attr c%"f")).1 = .ok (.obj 7) ∧
    (exLib.look st (.call .functions c%"p_f")).1 = .ok (.obj 7) := by
  refine ⟨by rfl, by rfl, by rfl⟩

/-! ### C38 -/

/-- What an object denotes. -/
def LObj.map {D : Type} (den : O → D) : LObj O → LObj D
  | .val v => .val v
  | .enum d => .enum d
  | .obj o => .obj (den o)

theorem LObj.isNone_map {D : Type} (den : O → D) (nl : O → Bool) (nd : D → Bool) (h : ∀ o, nd (den o) = nl o) (o : LObj O) :
    (o.map den).isNone nd = o.isNone nl := by
  cases o with
  | val v => cases v <;> rfl
  | enum d => rfl
  | obj o => exact h o

/-- What the backend makes of a definition does not depend on the backend's state; `nd` tells which
denotations are those of `None`. -/
structure Stable {D : Type} (l : Lib O B) (den : O → D) (nd : D → Bool) : Prop where
  func : ∀ n b b', (l.getFunction n b).1.map den = (l.getFunction n b').1.map den
  type : ∀ t b b', (l.getType t b).1.map den = (l.getType t b').1.map den
  struct : ∀ u n b b', (l.getStruct u n b).1.map den = (l.getStruct u n b').1.map den
  null : ∀ o, nd (den o) = l.isNull o

/-- The outcome of a lookup, with objects replaced by what they denote. -/
def outcome {D : Type} (den : O → D) (r : Except PyErr (LObj O) × LState O B) : Except PyErr (LObj D) :=
  r.1.map (LObj.map den)

theorem wrap_map {D : Type} (den : O → D) (r r' : Except PyErr O × B) (h : r.1.map den = r'.1.map den) :
    (match r with
      | (.ok o, b) => ((.ok (.obj o) : Except PyErr (LObj O)), b)
      | (.error e, b) => (.error e, b)).1.map (LObj.map den) =
    (match r' with
      | (.ok o, b) => ((.ok (.obj o) : Except PyErr (LObj O)), b)
      | (.error e, b) => (.error e, b)).1.map (LObj.map den) := by
  obtain ⟨r, b⟩ := r
  obtain ⟨r', b'⟩ := r'
  cases r <;> cases r' <;> simp_all [Except.map, LObj.map]

theorem build_stable {D : Type} {l : Lib O B} {den : O → D} {nd : D → Bool} (h : Stable l den nd) (k : Kind) (n : Str) (b b' : B) :
    (l.build k n b).1.map (LObj.map den) = (l.build k n b').1.map (LObj.map den) := by
  unfold Lib.build
  cases k with
  | values => simp only; split <;> rfl
  | functions => exact wrap_map den _ _ (h.func n b b')
  | types =>
    simp only
    split
    · exact wrap_map den _ _ (h.type _ b b')
    · rfl
    · rfl
  | structs => exact wrap_map den _ _ (h.struct false n b b')
  | unions => exact wrap_map den _ _ (h.struct true n b b')
  | enums => rfl
  | _ => rfl

/-- The outcome of `lib(kind, name)` on a fresh library. -/
def freshCall {D : Type} (l : Lib O B) (den : O → D) (b : B) (k : Kind) (n : Str) : Except PyErr (LObj D) :=
  outcome den (l.call (LState.init b) k n)

theorem freshCall_eq {D : Type} (l : Lib O B) (den : O → D) (b : B) (k : Kind) (n : Str) (hk : k ∈ lookKinds) :
    freshCall l den b k n = match (l.names n).find? (l.candidate k) with
      | none => .error .nameError
      | some m => (l.build k m b).1.map (LObj.map den) := by
  have hx : l.makeObj (LState.init b) k n = match (l.names n).find? (l.candidate k) with
      | none => (.error .nameError, b)
      | some m => l.build k m b := by
    unfold Lib.makeObj
    rw [if_neg (by simp [LState.init, dhas])]
    rfl
  unfold freshCall outcome Lib.call
  rw [if_neg (by simpa using hk)]
  simp only [LState.init, dget_nil]
  rw [show (⟨fun _ => [], [], b⟩ : LState O B) = LState.init b from rfl, hx]
  cases (l.names n).find? (l.candidate k) with
  | none => rfl
  | some m =>
    simp only
    cases hb : l.build k m b with
    | mk r b' => cases r <;> rfl

/-- The prefixed names whose presence in the cache breaks `_make_obj_`. -/
def Hit (l : Lib O B) (st : LState O B) (k : Kind) (n : Str) : Prop :=
  ∃ p ∈ l.prefixes, dhas (st.objs k) (p ++ n) = true

/-- All cached objects denote what a fresh lookup gives. -/
def CacheInv {D : Type} (l : Lib O B) (den : O → D) (b0 : B) (st : LState O B) : Prop :=
  ∀ k n o, dget (st.objs k) n = some o → freshCall l den b0 k n = .ok (o.map den)

theorem call_inv {D : Type} {l : Lib O B} {den : O → D} {nd : D → Bool} (hs : Stable l den nd) {b0 : B} {st : LState O B}
    (hi : CacheInv l den b0 st) (k : Kind) (n : Str) :
    CacheInv l den b0 (l.call st k n).2 ∧
    (outcome den (l.call st k n) = freshCall l den b0 k n ∨
      (Hit l st k n ∧ outcome den (l.call st k n) = .error .nameError)) := by
  by_cases hk : k ∈ lookKinds
  · cases hc : dget (st.objs k) n with
    | some o =>
      rw [call_cached l st k n o hk hc]
      exact ⟨hi, .inl (hi k n o hc).symm⟩
    | none =>
      by_cases hhit : (l.names n).any (fun m => dhas (st.objs k) m) = true
      · have : l.call st k n = (.error .nameError, { st with b := st.b }) := by
          simp only [Lib.call, hk, not_true, if_false, hc, Lib.makeObj, hhit, if_true]
        rw [this]
        refine ⟨hi, .inr ⟨?_, rfl⟩⟩
        simp only [Lib.names, List.any_cons, List.any_map, Bool.or_eq_true, List.any_eq_true] at hhit
        rcases hhit with h | ⟨p, hp, h⟩
        · simp [dhas, hc] at h
        · exact ⟨p, hp, h⟩
      · have hfresh := freshCall_eq l den b0 k n hk
        have hcall : l.call st k n = match (l.names n).find? (l.candidate k) with
          | none => (.error .nameError, { st with b := st.b })
          | some m => match l.build k m st.b with
            | (.error e, b) => (.error e, { st with b := b })
            | (.ok o, b) =>
              (.ok o, { st with objs := (fun k' => if k' = k then dset (st.objs k) n o else st.objs k'), b := b }) := by
          unfold Lib.call
          rw [if_neg (by simpa using hk), hc]
          simp only
          unfold Lib.makeObj
          rw [if_neg hhit]
          cases (l.names n).find? (l.candidate k) <;> rfl
        rw [hcall]
        cases hf : (l.names n).find? (l.candidate k) with
        | none =>
          rw [hf] at hfresh
          exact ⟨hi, .inl hfresh.symm⟩
        | some m =>
          rw [hf] at hfresh
          simp only at hfresh ⊢
          have hst := build_stable hs k m st.b b0
          cases hb : l.build k m st.b with
          | mk r b' =>
            rw [hb] at hst
            cases r with
            | error e => exact ⟨hi, .inl (by rw [hfresh, ← hst]; rfl)⟩
            | ok o =>
              refine ⟨?_, .inl (by rw [hfresh, ← hst]; rfl)⟩
              intro k' n' o' h'
              simp only at h'
              by_cases hkk : k' = k
              · subst hkk
                rw [if_pos rfl, dget_dset] at h'
                by_cases hnn : n = n'
                · subst hnn
                  rw [if_pos rfl] at h'
                  cases h'
                  rw [hfresh, ← hst]; rfl
                · rw [if_neg hnn] at h'
                  exact hi k' n' o' h'
              · rw [if_neg hkk] at h'
                exact hi k' n' o' h'
  · have : l.call st k n = (.error .keyError, st) := by simp [Lib.call, hk]
    rw [this]
    refine ⟨hi, .inl ?_⟩
    unfold freshCall
    simp [Lib.call, hk, outcome]

/-- The outcome of `lib.name`, in terms of fresh `lib(kind, name)`. -/
def attrSpec {D : Type} (l : Lib O B) (den : O → D) (nd : D → Bool) (b : B) (name : Str) : List Kind → Except PyErr (LObj D)
  | [] => .error .nameError
  | k :: ks =>
    match (l.names name).find? (fun n => dhas (l.defs k) n) with
    | none => attrSpec l den nd b name ks
    | some n =>
      match freshCall l den b k n with
      | .error e => .error e
      | .ok o => if o.isNone nd then attrSpec l den nd b name ks else .ok o

theorem attrLoop_inv {D : Type} {l : Lib O B} {den : O → D} {nd : D → Bool} (hs : Stable l den nd) {b0 : B} (name : Str)
    (ks : List Kind) : ∀ {st : LState O B}, CacheInv l den b0 st →
    CacheInv l den b0 (l.attrLoop name st ks).2 ∧
    (outcome den (l.attrLoop name st ks) = attrSpec l den nd b0 name ks ∨
      (l.prefixes ≠ [] ∧ outcome den (l.attrLoop name st ks) = .error .nameError)) := by
  induction ks with
  | nil => intro st hi; exact ⟨hi, .inl rfl⟩
  | cons k ks ih =>
    intro st hi
    rw [Lib.attrLoop, attrSpec]
    cases hf : (l.names name).find? (fun n => dhas (l.defs k) n) with
    | none => exact ih hi
    | some n =>
      simp only
      obtain ⟨h1, h2⟩ := call_inv hs hi k n
      cases hc : l.call st k n with
      | mk r st' =>
        rw [hc] at h1 h2
        simp only at h1
        have hpre : Hit l st k n → l.prefixes ≠ [] := by
          rintro ⟨p, hp, _⟩ h; rw [h] at hp; cases hp
        cases r with
        | error e =>
          rcases h2 with h2 | ⟨hh, h2⟩
          · rw [← h2]; exact ⟨h1, .inl rfl⟩
          · exact ⟨h1, .inr ⟨hpre hh, h2⟩⟩
        | ok o =>
          rcases h2 with h2 | ⟨hh, h2⟩
          · rw [← h2]
            simp only [outcome, Except.map, LObj.isNone_map den l.isNull nd hs.null]
            cases ho : o.isNone l.isNull with
            | true =>
              rw [if_pos rfl, if_pos rfl]
              exact ih h1
            | false =>
              rw [if_neg (by simp), if_neg (by simp)]
              exact ⟨h1, .inl rfl⟩
          · simp [outcome, Except.map] at h2

/-- The invariant of all states reached by lookups. -/
structure LookInv {D : Type} (l : Lib O B) (den : O → D) (nd : D → Bool) (b0 : B) (st : LState O B) : Prop where
  objs : CacheInv l den b0 st
  all : ∀ n o, dget st.all n = some o → attrSpec l den nd b0 n lookKinds = .ok (o.map den)

theorem lookInv_init {D : Type} (l : Lib O B) (den : O → D) (nd : D → Bool) (b0 : B) : LookInv l den nd b0 (LState.init b0) :=
  ⟨fun k n o h => by simp [LState.init] at h, fun n o h => by simp [LState.init] at h⟩

/-- The outcome of a lookup on a fresh library. -/
def freshLook {D : Type} (l : Lib O B) (den : O → D) (b : B) (q : Look) : Except PyErr (LObj D) :=
  outcome den (l.look (LState.init b) q)

theorem look_inv {D : Type} {l : Lib O B} {den : O → D} {nd : D → Bool} (hs : Stable l den nd) {b0 : B} {st : LState O B}
    (hi : LookInv l den nd b0 st) (q : Look) :
    LookInv l den nd b0 (l.look st q).2 ∧
    (outcome den (l.look st q) = (match q with
        | .call k n => freshCall l den b0 k n
        | .attr n => attrSpec l den nd b0 n lookKinds) ∨
      (l.prefixes ≠ [] ∧ outcome den (l.look st q) = .error .nameError)) := by
  cases q with
  | call k n =>
    obtain ⟨h1, h2⟩ := call_inv hs hi.objs k n
    refine ⟨⟨h1, ?_⟩, ?_⟩
    · intro m o h
      apply hi.all m o
      have : (l.look st (.call k n)).2.all = st.all := call_all l st k n
      rw [this] at h; exact h
    · rcases h2 with h2 | ⟨⟨p, hp, _⟩, h2⟩
      · exact .inl h2
      · exact .inr ⟨fun h => (by rw [h] at hp; cases hp), h2⟩
  | attr n =>
    show LookInv l den nd b0 (l.getattr st n).2 ∧ (outcome den (l.getattr st n) = _ ∨ _ ∧ outcome den (l.getattr st n) = _)
    unfold Lib.getattr
    cases hc : dget st.all n with
    | some o => exact ⟨hi, .inl (hi.all n o hc).symm⟩
    | none =>
      simp only
      obtain ⟨h1, h2⟩ := attrLoop_inv hs n lookKinds hi.objs
      have h3 := attrLoop_all l n lookKinds st
      cases ha : l.attrLoop n st lookKinds with
      | mk r st' =>
        rw [ha] at h1 h2 h3
        simp only at h1 h3
        cases r with
        | error e => exact ⟨⟨h1, fun m o h => hi.all m o (by rw [h3] at h; exact h)⟩, h2⟩
        | ok o =>
          have h4 : attrSpec l den nd b0 n lookKinds = .ok (o.map den) := by
            rcases h2 with h2 | ⟨_, h2⟩
            · exact h2.symm
            · simp [outcome, Except.map] at h2
          refine ⟨⟨h1, ?_⟩, .inl h4.symm⟩
          intro m o' h
          simp only [h3] at h
          rw [dget_dset] at h
          split at h
          · rename_i hnm; subst hnm; cases h; exact h4
          · exact hi.all m o' h

theorem runLooks_inv {D : Type} {l : Lib O B} {den : O → D} {nd : D → Bool} (hs : Stable l den nd) {b0 : B} (qs : List Look) :
    ∀ {st : LState O B}, LookInv l den nd b0 st → LookInv l den nd b0 (l.runLooks st qs) := by
  induction qs with
  | nil => intro st h; exact h
  | cons q qs ih => intro st h; exact ih (look_inv hs h q).1

theorem call_other (l : Lib O B) (st : LState O B) (k k' : Kind) (n : Str) (h : k' ≠ k) :
    (l.call st k n).2.objs k' = st.objs k' := by
  unfold Lib.call
  split
  · rfl
  · split
    · rfl
    · split
      · rfl
      · simp [h]

theorem attrLoop_fresh {D : Type} {l : Lib O B} {den : O → D} {nd : D → Bool} (hs : Stable l den nd) {b0 : B} (name : Str)
    (ks : List Kind) (hn : ks.Nodup) : ∀ {st : LState O B}, CacheInv l den b0 st → (∀ k ∈ ks, st.objs k = []) →
    outcome den (l.attrLoop name st ks) = attrSpec l den nd b0 name ks := by
  induction ks with
  | nil => intro st _ _; rfl
  | cons k ks ih =>
    intro st hi he
    rw [List.nodup_cons] at hn
    rw [Lib.attrLoop, attrSpec]
    cases hf : (l.names name).find? (fun n => dhas (l.defs k) n) with
    | none => exact ih hn.2 hi (fun k' hk' => he k' (by simp [hk']))
    | some n =>
      simp only
      obtain ⟨h1, h2⟩ := call_inv hs hi k n
      have h3 : ∀ k' ∈ ks, (l.call st k n).2.objs k' = [] := by
        intro k' hk'
        rw [call_other l st k k' n (fun h => hn.1 (h ▸ hk'))]
        exact he k' (by simp [hk'])
      have h4 : outcome den (l.call st k n) = freshCall l den b0 k n := by
        rcases h2 with h2 | ⟨⟨p, _, hp⟩, _⟩
        · exact h2
        · rw [he k (by simp)] at hp; simp [dhas] at hp
      rw [← h4]
      cases hc : l.call st k n with
      | mk r st' =>
        rw [hc] at h1 h3
        cases r with
        | error e => rfl
        | ok o =>
          simp only [outcome, Except.map, LObj.isNone_map den l.isNull nd hs.null]
          cases ho : o.isNone l.isNull with
          | true =>
            rw [if_pos rfl, if_pos rfl]
            exact ih hn.2 h1 h3
          | false =>
            rw [if_neg (by simp), if_neg (by simp)]

theorem freshLook_eq {D : Type} {l : Lib O B} {den : O → D} {nd : D → Bool} (hs : Stable l den nd) (b0 : B) (q : Look) :
    freshLook l den b0 q = match q with
      | .call k n => freshCall l den b0 k n
      | .attr n => attrSpec l den nd b0 n lookKinds := by
  cases q with
  | call k n => rfl
  | attr n =>
    have h := attrLoop_fresh hs n lookKinds (by decide) (lookInv_init l den nd b0).objs (fun k _ => rfl)
    show outcome den (l.getattr (LState.init b0) n) = attrSpec l den nd b0 n lookKinds
    rw [← h]
    unfold Lib.getattr
    simp only [LState.init, dget_nil]
    cases l.attrLoop n ⟨fun _ => [], [], b0⟩ lookKinds with
    | mk r st => cases r <;> rfl

/-- C38 (partial: with prefixes a lookup may instead fail, see the counterexample): for every prefix
list, after every history, a lookup gives what it gives on a fresh library, or fails with `NameError`;
it never denotes anything else. -/
theorem C38_history_partial {D : Type} (l : Lib O B) (den : O → D) {nd : D → Bool} (hs : Stable l den nd) (b0 : B) (qs : List Look)
    (q : Look) :
    outcome den (l.look (l.runLooks (LState.init b0) qs) q) = freshLook l den b0 q ∨
    (l.prefixes ≠ [] ∧ outcome den (l.look (l.runLooks (LState.init b0) qs) q) = .error .nameError) := by
  rw [freshLook_eq hs]
  exact (look_inv hs (runLooks_inv hs qs (lookInv_init l den nd b0)) q).2

/-- C38: without prefixes, lookups do not depend on history. -/
theorem C38_history {D : Type} (l : Lib O B) (den : O → D) {nd : D → Bool} (hs : Stable l den nd) (b0 : B) (hp : l.prefixes = [])
    (qs : List Look) (q : Look) :
    outcome den (l.look (l.runLooks (LState.init b0) qs) q) = freshLook l den b0 q := by
  rcases C38_history_partial l den hs b0 qs q with h | ⟨h, _⟩
  · exact h
  · exact (h hp).elim

/-- The example backend is stable when object numbers are forgotten. -/
example : Stable exLib (fun _ => ()) (fun _ => false) := ⟨fun _ _ _ => rfl, fun _ _ _ => rfl, fun _ _ _ _ => rfl, fun _ => rfl⟩

/-- C38 fails with prefixes: `lib('functions', 'f')` works on a fresh library but raises `NameError` once
`p_f` has been looked up; the same for `lib('values', 'x')`, which is defined under its own name, after
`p_x`; and for `lib.x`. -/
theorem C38_counterexample :
    (exLib.look (LState.init 0) (.call .functions c%"f")).1 = .ok (.obj 0) ∧
    (exLib.look (exLib.runLooks (LState.init 0) [.attr c%"p_f"]) (.call .functions c%"f")).1 = .error .nameError ∧
    (exLib.look (LState.init 0) (.attr c%"x")).1 = .ok (.val (.int 1)) ∧
    (exLib.look (exLib.runLooks (LState.init 0) [.call .values c%"p_x"]) (.attr c%"x")).1 = .error .nameError := by
  refine ⟨by rfl, by rfl, by rfl, by rfl⟩

/-! ### C39 -/

/-- The documented order of `lib.name` (c_library.py, docstring of `CLibrary`). -/
def docOrder : List Kind := [.values, .functions, .types, .structs, .unions, .enums]

/-- Where a name is defined: the first kind, in the documented order, that has the name or a prefixed
name, and the first such name. -/
def definedAt (l : Lib O B) (name : Str) : List Kind → Option (Kind × Str)
  | [] => none
  | k :: ks =>
    match (name :: l.prefixes.map (· ++ name)).find? (fun n => dhas (l.defs k) n) with
    | some n => some (k, n)
    | none => definedAt l name ks

/-- C39 (partial: names whose object is `None` are passed over, see the counterexamples): on a fresh
library `lib.name` is the object built for the first kind, in the documented order, that defines the
name, exact name before prefixes; `NameError` if there is none; an error in building it is raised. -/
theorem C39_precedence_partial (l : Lib O B) (b : B) (name : Str)
    (hv : ∀ n, dget (l.defs .values) n ≠ some (.value .none))
    (hz : ∀ k n o, (l.build k n b).1 = .ok (.obj o) → l.isNull o = false) :
    (l.getattr (LState.init b) name).1 = match definedAt l name docOrder with
      | none => .error .nameError
      | some (k, n) => (l.build k n b).1 := by
  rw [show docOrder = lookKinds from rfl]
  have hcall : ∀ (k : Kind) (n : Str), k ∈ lookKinds → dhas (l.defs k) n = true →
      (l.call (LState.init b) k n).1 = (l.build k n b).1 := by
    intro k n hk hd
    unfold Lib.call
    rw [if_neg (by simpa using hk)]
    simp only [LState.init, dget_nil]
    have hm : l.makeObj ⟨fun _ => [], [], b⟩ k n = l.build k n b := by
      unfold Lib.makeObj
      rw [if_neg (by simp [dhas])]
      have : (l.names n).find? (l.candidate k) = some n := by
        simp [Lib.names, List.find?_cons, Lib.candidate, hd]
      rw [this]
    rw [hm]
    cases l.build k n b with
    | mk r b' => cases r <;> rfl
  have hnone : ∀ (k : Kind) (n : Str) (o : LObj O), (l.build k n b).1 = .ok o → o.isNone l.isNull = false := by
    intro k n o h
    have hz' := hz k n
    rw [h] at hz'
    unfold Lib.build at h
    cases k with
    | values =>
      simp only at h
      split at h
      · rename_i v hg
        simp at h
        subst h
        cases v with
        | none => exact (hv n hg).elim
        | _ => rfl
      · simp at h
      · simp at h
    | functions => simp only at h; split at h <;> simp at h; subst h; exact hz' _ rfl
    | types => simp only at h; split at h <;> (try split at h) <;> simp at h; subst h; exact hz' _ rfl
    | structs => simp only at h; split at h <;> simp at h; subst h; exact hz' _ rfl
    | unions => simp only at h; split at h <;> simp at h; subst h; exact hz' _ rfl
    | enums =>
      simp only [Lib.getEnum] at h
      have hfetch : ∀ m, (match dget (l.defs .enums) m with
          | some (.enum d) => (.ok (.enum d) : Except PyErr (LObj O))
          | some _ => .error .typeError
          | none => .error .keyError) = .ok o → o.isNone l.isNull = false := by
        intro m hm
        split at hm <;> simp at hm
        subst hm; rfl
      split at h
      · exact hfetch _ h
      · split at h
        · split at h
          · simp at h
          · split at h
            · split at h
              · simp at h
              · split at h
                · exact hfetch _ h
                · simp at h
                · simp at h
            · simp at h
        · simp at h
    | _ => simp at h
  have key : ∀ ks, (∀ k ∈ ks, k ∈ lookKinds) → (l.attrLoop name (LState.init b) ks).1 = match definedAt l name ks with
      | none => .error .nameError
      | some (k, n) => (l.build k n b).1 := by
    intro ks
    induction ks with
    | nil => intro _; rfl
    | cons k ks ih =>
      intro hks
      rw [Lib.attrLoop, definedAt]
      have hnm : l.names name = name :: l.prefixes.map (· ++ name) := rfl
      rw [hnm]
      cases hf : (name :: l.prefixes.map (· ++ name)).find? (fun n => dhas (l.defs k) n) with
      | none => exact ih (fun k hk => hks k (by simp [hk]))
      | some n =>
        simp only
        have h1 := hcall k n (hks k (by simp)) (List.find?_some hf)
        cases hc : l.call (LState.init b) k n with
        | mk r st' =>
          rw [hc] at h1
          simp only at h1
          cases r with
          | error e => exact h1
          | ok o =>
            have := hnone k n o h1.symm
            simp only [this]
            exact h1
  unfold Lib.getattr
  simp only [LState.init, dget_nil]
  have := key lookKinds (fun k hk => hk)
  rw [show (⟨fun _ => [], [], b⟩ : LState O B) = LState.init b from rfl]
  cases ha : l.attrLoop name (LState.init b) lookKinds with
  | mk r st' =>
    rw [ha] at this
    rw [← this]
    cases r <;> rfl

/-- C39 (partial): `NameError` exactly when no kind has the name, if no object is `None` and building
objects does not itself raise `NameError`. -/
theorem C39_nameError_partial (l : Lib O B) (b : B) (name : Str)
    (hv : ∀ n, dget (l.defs .values) n ≠ some (.value .none))
    (hz : ∀ k n o, (l.build k n b).1 = .ok (.obj o) → l.isNull o = false)
    (hb : ∀ k n, dhas (l.defs k) n = true → (l.build k n b).1 ≠ .error .nameError) :
    (l.getattr (LState.init b) name).1 = .error .nameError ↔
      ∀ k ∈ docOrder, ∀ n ∈ name :: l.prefixes.map (· ++ name), dhas (l.defs k) n = false := by
  rw [C39_precedence_partial l b name hv hz]
  have key : ∀ ks, (definedAt l name ks = none ↔
      ∀ k ∈ ks, ∀ n ∈ name :: l.prefixes.map (· ++ name), dhas (l.defs k) n = false) ∧
      ∀ k n, definedAt l name ks = some (k, n) → dhas (l.defs k) n = true := by
    intro ks
    induction ks with
    | nil => simp [definedAt]
    | cons k ks ih =>
      rw [definedAt]
      cases hf : (name :: l.prefixes.map (· ++ name)).find? (fun n => dhas (l.defs k) n) with
      | none =>
        simp only
        rw [List.find?_eq_none] at hf
        refine ⟨?_, ih.2⟩
        rw [ih.1]
        constructor
        · intro h k' hk' n hn
          rcases List.mem_cons.1 hk' with rfl | hk'
          · simpa using hf n hn
          · exact h k' hk' n hn
        · intro h k' hk' n hn
          exact h k' (by simp [hk']) n hn
      | some n =>
        simp only
        refine ⟨⟨by simp, fun h => ?_⟩, ?_⟩
        · have h1 := h k (by simp) n (List.mem_of_find?_eq_some hf)
          rw [List.find?_some hf] at h1
          cases h1
        · intro k' n' h
          simp at h
          obtain ⟨rfl, rfl⟩ := h
          exact List.find?_some hf
  obtain ⟨h1, h2⟩ := key docOrder
  rw [← h1]
  cases hd : definedAt l name docOrder with
  | none => simp
  | some p =>
    obtain ⟨k, n⟩ := p
    simp only [reduceCtorEq, iff_false]
    exact hb k n (h2 k n hd)

/-- In the example, `x` is both a value and a function: the value wins; `f` is found under its prefix. -/
example : definedAt exLib c%"x" docOrder = some (.values, c%"x") ∧
    definedAt exLib c%"f" docOrder = some (.functions, c%"p_f") ∧ definedAt exLib c%"q" docOrder = none := by
  refine ⟨by rfl, by rfl, by rfl⟩

/-- C39 fails for a name whose value is unknown (`extern int v;`): it is defined, yet `lib.v` raises
`NameError`. -/
theorem C39_counterexample :
    dhas (exLib.defs .values) c%"v" = true ∧ (exLib.getattr (LState.init 0) c%"v").1 = .error .nameError := by
  refine ⟨by rfl, by rfl⟩

/-! ### C40 -/

/-- The invariant of the registry: the entries are exactly the live objects, one per path. -/
structure RegInv (r : Registry) : Prop where
  nodup : DNodup r.libs
  entry : ∀ p i, dget r.libs p = some i ↔ (i, p) ∈ r.alive
  fresh : ∀ i p, (i, p) ∈ r.alive → i < r.next
  one : ∀ i p q, (i, p) ∈ r.alive → (i, q) ∈ r.alive → p = q

theorem regInv_empty : RegInv Registry.empty :=
  ⟨by simp [DNodup, dkeys, Registry.empty], by simp [Registry.empty], by simp [Registry.empty], by simp [Registry.empty]⟩

theorem dget_filter_val {d : Dict Str Nat} (hn : DNodup d) (i : Nat) (p : Str) (j : Nat) :
    dget (d.filter fun x => x.2 ≠ i) p = some j ↔ dget d p = some j ∧ j ≠ i := by
  have hsub : ∀ d : Dict Str Nat, DNodup d → DNodup (d.filter fun x => x.2 ≠ i) := by
    intro d hn
    exact List.Nodup.sublist (List.Sublist.map _ List.filter_sublist) hn
  constructor
  · intro h
    have hm := dget_some_mem h
    simp at hm
    exact ⟨dget_of_mem hn hm.1, hm.2⟩
  · rintro ⟨h, hne⟩
    apply dget_of_mem (hsub d hn)
    simp [hne, dget_some_mem h]

theorem regInv_step {r : Registry} (h : RegInv r) (o : RegOp) : RegInv (regStep r o) := by
  cases o with
  | openL p c =>
    unfold regStep openLib
    cases hp : dget r.libs p with
    | some i => simp only [hp]; exact h
    | none =>
      cases c with
      | error e => simp only [hp]; exact h
      | ok u =>
        cases u
        simp only [hp]
        have hno : ∀ i, (i, p) ∉ r.alive := by
          intro i hi
          rw [← h.entry] at hi
          rw [hp] at hi; cases hi
        refine ⟨h.nodup.dset _ _, ?_, ?_, ?_⟩
        · intro q i
          simp only [List.mem_cons, Prod.mk.injEq]
          rw [dget_dset]
          by_cases hpq : p = q
          · subst hpq
            rw [if_pos rfl]
            constructor
            · intro h; cases h; exact .inl ⟨rfl, rfl⟩
            · rintro (⟨rfl, _⟩ | h')
              · rfl
              · exact (hno i h').elim
          · rw [if_neg hpq, h.entry]
            constructor
            · exact .inr
            · rintro (⟨_, rfl⟩ | h')
              · exact (hpq rfl).elim
              · exact h'
        · intro i q hi
          rcases List.mem_cons.1 hi with hi | hi
          · simp at hi; obtain ⟨rfl, rfl⟩ := hi; simp
          · have := h.fresh i q hi; simp; omega
        · intro i q q' h1 h2
          rcases List.mem_cons.1 h1 with h1 | h1 <;> rcases List.mem_cons.1 h2 with h2 | h2
          · simp at h1 h2; rw [h1.2, h2.2]
          · simp at h1; have := h.fresh i q' h2; omega
          · simp at h2; have := h.fresh i q h1; omega
          · exact h.one i q q' h1 h2
  | drop i =>
    unfold regStep dropLib
    refine ⟨List.Nodup.sublist (List.Sublist.map _ List.filter_sublist) h.nodup, ?_, ?_, ?_⟩
    · intro p j
      simp only
      rw [dget_filter_val h.nodup, h.entry]
      simp
    · intro j p hj
      simp at hj
      exact h.fresh j p hj.1
    · intro j p q h1 h2
      simp at h1 h2
      exact h.one j p q h1.1 h2.1

theorem regInv_run (os : List RegOp) : ∀ {r : Registry}, RegInv r → RegInv (regRun r os) := by
  induction os with
  | nil => intro r h; exact h
  | cons o os ih => intro r h; exact ih (regInv_step h o)

/-- C40: after any sequence of opens (successful or not) and object deaths, there is at most one live
object per path; opening a path with a live object returns that object and changes nothing; a path
without a live object yields a new object or the error of its construction. -/
theorem C40_one_per_path (os : List RegOp) :
    let r := regRun Registry.empty os
    (∀ i j p, (i, p) ∈ r.alive → (j, p) ∈ r.alive → i = j) ∧
    (∀ i p c, (i, p) ∈ r.alive → openLib r p c = (.ok i, r)) ∧
    ∀ p c, (∀ i, (i, p) ∉ r.alive) → (openLib r p c).1 = c.map (fun _ => r.next) ∧ ∀ i q, (i, q) ∈ r.alive → i ≠ r.next := by
  intro r
  have h : RegInv r := regInv_run os regInv_empty
  refine ⟨?_, ?_, ?_⟩
  · intro i j p hi hj
    rw [← h.entry] at hi hj
    rw [hi] at hj; cases hj; rfl
  · intro i p c hi
    rw [← h.entry] at hi
    simp [openLib, hi]
  · intro p c hno
    refine ⟨?_, fun i q hi => ?_⟩
    · have : dget r.libs p = none := by
        cases hp : dget r.libs p with
        | none => rfl
        | some i => rw [h.entry] at hp; exact (hno i hp).elim
      simp only [openLib, this]
      cases c with
      | error e => rfl
      | ok u => rfl
    · have := h.fresh i q hi; omega

/-- Open `a` twice, `b`, drop `a`, open it again. -/
example :
    let os : List RegOp := [.openL c%"a" (.ok ()), .openL c%"a" (.ok ()), .openL c%"b" (.error .osError), .openL c%"b" (.ok ()), .drop 0,
      .openL c%"a" (.ok ())]
    (regRun Registry.empty os).alive = [(2, c%"a"), (1, c%"b")] := by rfl

/-- C40: the constructor call with any two ways of naming the library that lead to the same path returns
the same object while it lives. -/
theorem C40_call (os : List RegOp) (w : World) (backend : Str) (a : LibArg) (p : Str) (i : Nat)
    (create : Str → Except PyErr Unit) (ha : libPath w backend a = .ok p)
    (hi : (i, p) ∈ (regRun Registry.empty os).alive) :
    metaCall w backend (regRun Registry.empty os) a create = (.ok i, regRun Registry.empty os) := by
  simp only [metaCall, ha]
  exact (C40_one_per_path os).2.1 i p (create p) hi

/-- C40 holds for path strings, not for files: a library found by name is registered under the path
found, while a path given by the user is resolved first, so that a symbolic link gives two live objects
for one file. -/
theorem C40_counterexample_symlink :
    let w : World := ⟨fun _ => .ok c%"/l/f.so", fun s => if s = c%"/l/f.so" then c%"/l/f.so.1" else s, fun _ => true,
      fun _ => [64], [c%"ctypes"], 64⟩
    let r1 := metaCall w c%"ctypes" Registry.empty (.name c%"f") (fun _ => .ok ())
    let r2 := metaCall w c%"ctypes" r1.2 (.path c%"/l/f.so") (fun _ => .ok ())
    r1.1 = .ok 0 ∧ r2.1 = .ok 1 ∧ r2.2.alive = [(1, c%"/l/f.so.1"), (0, c%"/l/f.so")] := by
  refine ⟨by rfl, by rfl, by rfl⟩

end Pyclib
