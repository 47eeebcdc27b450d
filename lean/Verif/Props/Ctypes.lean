import Verif.Proof.CtypesFuel
/-
C47-C52: the ctypes backend.

Full statement of C47: the class built for a type has the structure of the C type.  It is false for some
shapes (see the counterexamples); `C47_mirrors_partial` and `C47_built_partial` prove it for types in which
a function is pointed to exactly once, and array brackets do not meet those of a typedef.
-/
namespace Pyclib
open Spec

/-- The states of the backend: array lists hold what was declared and no class exists at first; then types
that can be used any number of times are asked for, types of variables and functions (`asked`, each once),
and structs or unions by tag. -/
inductive CtReach (e : CtEnv) (own : Int → Owner) (dim : Int → Option Int) : List Nat → CtState → Prop
  | init (h : Int → List (Option Int)) (hh : ∀ i, h i = [dim i]) : CtReach e own dim [] ⟨h, [], []⟩
  | shared (ks : List Nat) (st : CtState) (n : Nat) (t : CType) (hr : CtReach e own dim ks st)
      (ht : TyOk e own .shared t) : CtReach e own dim ks (getType e n st t).2
  | top (ks : List Nat) (st : CtState) (n k : Nat) (t : CType) (hr : CtReach e own dim ks st)
      (ht : TyOk e own (.top k) t) (hk : k ∉ ks) : CtReach e own dim (k :: ks) (getType e n st t).2
  | tag (ks : List Nat) (st : CtState) (n : Nat) (u : Bool) (tag : Str) (hr : CtReach e own dim ks st)
      (ht : dhas (e.defs (compKind u)) tag = true) : CtReach e own dim ks (getStruct e (getType e n) st u tag).2

section
variable {e : CtEnv} {own : Int → Owner} {dim : Int → Option Int}

theorem ctReach_inv (hw : CtWorld e own) {ks : List Nat} {st : CtState} (h : CtReach e own dim ks st) :
    CtInv e own dim st ∧ ∀ i k, own i = .top k → k ∉ ks → st.heap i = [dim i] := by
  induction h with
  | init h hh =>
    exact ⟨⟨fun i _ => hh i, fun i _ _ _ _ _ => hh i, ⟨fun id c h => by simp at h, fun tag id h => by simp at h⟩⟩,
      fun i _ _ _ => hh i⟩
  | shared ks st n t hr ht ih =>
    obtain ⟨hi, htop⟩ := ih
    obtain ⟨h1, h2, _⟩ := getType_ok hw n .shared t st ht hi (clean_shared hi ht) (by simp)
    refine ⟨h1.inv hi h2 (by simp), fun i k ho hk => ?_⟩
    rw [h1.heap i (.inr (by rw [ho]; simp)) (fun u tag j h => by rw [ho] at h; cases h), htop i k ho hk]
  | top ks st n k t hr ht hk ih =>
    obtain ⟨hi, htop⟩ := ih
    obtain ⟨h1, h2, _⟩ := getType_ok hw n (.top k) t st ht hi (fun i hi => htop i k (ht.1.owned i hi) hk) (by simp)
    refine ⟨h1.inv hi h2 (by simp), fun i k' ho hk' => ?_⟩
    simp at hk'
    rw [h1.heap i (.inr (by rw [ho]; simp; exact hk'.1)) (fun u tag j h => by rw [ho] at h; cases h), htop i k' ho hk'.2]
  | tag ks st n u tag hr ht ih =>
    obtain ⟨hi, htop⟩ := ih
    obtain ⟨h1, h2, _⟩ := getStruct_ok (getType_ok hw n) hw st u tag hi ht
    refine ⟨h1.inv hi h2 (by simp), fun i k ho hk => ?_⟩
    rw [h1.heap i (.inr (by rw [ho]; simp)) (fun u tag j h => by rw [ho] at h; cases h), htop i k ho hk]

/-! ### C47 -/

/-- C47 (partial: shapes in `TyOk`): whenever `_get_type` returns a class, the class mirrors the C type that
was declared, in every state the backend can be in. -/
theorem C47_mirrors_partial (hw : CtWorld e own) {ks : List Nat} {st : CtState} (hr : CtReach e own dim ks st)
    (o : Owner) (t : CType) (ht : TyOk e own o t) (ho : o = .shared ∨ ∃ k, k ∉ ks ∧ o = .top k)
    (n : Nat) (c : Cls) (v : CTy) (hc : (getType e n st t).1 = .ok c) (hv : Means e.cfg e.tm dim t v) :
    Mirrors e.types (getType e n st t).2.structs c v := by
  obtain ⟨hi, htop⟩ := ctReach_inv hw hr
  have hcl : Clean dim st.heap t.mods := by
    intro i hit
    have h1 := ht.1.owned i hit
    rcases ho with rfl | ⟨k, hk, rfl⟩
    · exact hi.shared i h1
    · exact htop i k h1 hk
  exact (getType_ok hw n o t st ht hi hcl (by
    intro u tag j h; rcases ho with rfl | ⟨k, _, rfl⟩ <;> cases h)).2.2 c v hc hv

/-- C47 (partial: shapes in `TyOk`): a C type that ctypes has a class for gets a class, and it mirrors the
type.  The bound on the recursion depth exists and does not matter once it is large enough. -/
theorem C47_built_partial (hw : CtWorld e own) (hb : CtBuild e dim) (hf : ∀ m ∈ allMembers e, FiniteParams e m.type)
    {ks : List Nat} {st : CtState} (hr : CtReach e own dim ks st)
    (o : Owner) (t : CType) (ht : TyOk e own o t) (ho : o = .shared ∨ ∃ k, k ∉ ks ∧ o = .top k)
    (hft : FiniteParams e t) (v : CTy) (hv : Means e.cfg e.tm dim t v) (hbv : Buildable e.types (KnownTag e) v) :
    ∃ N c st', (∀ n, N ≤ n → getType e n st t = (.ok c, st')) ∧ Mirrors e.types st'.structs c v := by
  obtain ⟨hi, htop⟩ := ctReach_inv hw hr
  have hcl : Clean dim st.heap t.mods := by
    intro i hit
    have h1 := ht.1.owned i hit
    rcases ho with rfl | ⟨k, hk, rfl⟩
    · exact hi.shared i h1
    · exact htop i k h1 hk
  obtain ⟨N, hN⟩ := ends_getType hw.tags hw.map hf (openTags e st) t hft
  have hend := hN N (Nat.le_refl _) st (Nat.le_refl _)
  have htot := getType_total hw hb N o t st v ht hi hcl (by
    intro u tag j h; rcases ho with rfl | ⟨k, _, rfl⟩ <;> cases h) hv hbv
  rcases htot with ⟨c, hc⟩ | hc
  · refine ⟨N, c, (getType e N st t).2, fun n hn => ?_, ?_⟩
    · rw [agrees_more hn st t hend, ← hc]
    · exact C47_mirrors_partial hw hr o t ht ho N c v hc hv
  · exact (hend hc).elim

/-! ### C48 -/

/-- C48 (partial: types without neighbouring array brackets): asking again, after any further use of the
backend, gives the same class and changes nothing at all. -/
theorem C48_repeatable_partial (hw : CtWorld e own) {ks ks' : List Nat} {st st' : CtState}
    (hr : CtReach e own dim ks st) (hr' : CtReach e own dim ks' st') (t : CType) (ht : TyOk e own .shared t)
    (n : Nat) (c : Cls) (hc : (getType e n st t).1 = .ok c)
    (hlater : ∀ tag id, dget (getType e n st t).2.structs tag = some id → dget st'.structs tag = some id) :
    getType e n st' t = (.ok c, st') :=
  again_getType hw n t st st' c ht (ctReach_inv hw hr).1 (ctReach_inv hw hr').1 hc hlater

/-- Any further use of the backend. -/
inductive CtAfter (e : CtEnv) : CtState → CtState → Prop
  | refl (st : CtState) : CtAfter e st st
  | type (st st' : CtState) (n : Nat) (t : CType) (h : CtAfter e st st') : CtAfter e st (getType e n st' t).2
  | tag (st st' : CtState) (n : Nat) (u : Bool) (tag : Str) (ht : dhas (e.defs (compKind u)) tag = true)
      (h : CtAfter e st st') : CtAfter e st (getStruct e (getType e n) st' u tag).2

theorem ctAfter_keeps (ht : TagsOk e) {st st' : CtState} (h : CtAfter e st st') : Keeps st st' := by
  induction h with
  | refl => exact .refl _
  | type st' n t h ih => exact ih.trans (keeps_getType ht n st' t)
  | tag st' n u tag hd h ih => exact ih.trans (keeps_struct (keeps_getType ht n) st' u tag hd).1

/-- C48 (partial, as before): asking again any time later gives the same class and changes nothing. -/
theorem C48_later_partial (hw : CtWorld e own) {ks ks' : List Nat} {st st' : CtState}
    (hr : CtReach e own dim ks st) (hr' : CtReach e own dim ks' st') (t : CType) (ht : TyOk e own .shared t)
    (n : Nat) (c : Cls) (hc : (getType e n st t).1 = .ok c) (hl : CtAfter e (getType e n st t).2 st') :
    getType e n st' t = (.ok c, st') :=
  C48_repeatable_partial hw hr hr' t ht n c hc (ctAfter_keeps hw.tags hl)

/-- C48, the immediate repetition. -/
theorem C48_twice_partial (hw : CtWorld e own) {ks : List Nat} {st : CtState} (hr : CtReach e own dim ks st)
    (t : CType) (ht : TyOk e own .shared t) (n : Nat) (c : Cls) (hc : (getType e n st t).1 = .ok c) :
    getType e n (getType e n st t).2 t = (.ok c, (getType e n st t).2) :=
  C48_repeatable_partial hw hr (.shared ks st n t hr ht) t ht n c hc (fun _ _ h => h)

/-- C48: using the backend for one type leaves the lists of all others as declared, except those of structs
that get built on the way. -/
theorem C48_definitions (hw : CtWorld e own) {ks : List Nat} {st : CtState} (hr : CtReach e own dim ks st)
    (o : Owner) (t : CType) (ht : TyOk e own o t) (ho : o = .shared ∨ ∃ k, k ∉ ks ∧ o = .top k) (n : Nat) (i : Int)
    (hi : own i = .shared ∨ own i ≠ o)
    (hm : ∀ u tag j, own i = .member u tag j →
      dget st.structs tag ≠ none ∨ dget (getType e n st t).2.structs tag = none) :
    (getType e n st t).2.heap i = st.heap i := by
  obtain ⟨hinv, htop⟩ := ctReach_inv hw hr
  have hcl : Clean dim st.heap t.mods := by
    intro i hit
    have h1 := ht.1.owned i hit
    rcases ho with rfl | ⟨k, hk, rfl⟩
    · exact hinv.shared i h1
    · exact htop i k h1 hk
  exact (getType_ok hw n o t st ht hinv hcl (by
    intro u tag j h; rcases ho with rfl | ⟨k, _, rfl⟩ <;> cases h)).1.heap i hi hm

/-! ### C49 -/

/-- C49: once a struct or union has a class, every later request keeps it. -/
theorem C49_kept (ht : TagsOk e) (n : Nat) (st : CtState) (t : CType) (tag : Str) (id : Nat)
    (h : dget st.structs tag = some id) : dget (getType e n st t).2.structs tag = some id :=
  keeps_getType ht n st t tag id h

/-- C49: a type that resolves to a struct or union without modifiers, whether it is written with the tag or
through typedefs, gives the class registered for the tag; so does the access by tag. -/
theorem C49_same_class (ht : TagsOk e) (n : Nat) (st : CtState) (t b : CType) (u : Bool) (tag : Str) (c : Cls)
    (hmap : MapMatch e.tm) (hq : QualsMatch t) (hnt : dget e.types (compWord u ++ ' ' :: tag) = none)
    (hb : Resolves e.cfg e.tm t b) (hbs : dropSigned b.spec = compWord u ++ ' ' :: tag) (hbm : b.mods = [])
    (hc : (getType e n st t).1 = .ok c) :
    ∃ id, c = .comp id ∧ dget (getType e n st t).2.structs tag = some id ∧
      ∀ n' st', (∀ tg id, dget (getType e n st t).2.structs tg = some id → dget st'.structs tg = some id) →
        getStruct e (getType e n') st' u tag = (.ok (.comp id), st') := by
  have hev := (C01_result _ _ t _ hmap hq).2 ⟨b, hb, rfl⟩
  rw [hbs, hbm] at hev
  cases n with
  | zero => simp [getType] at hc
  | succ n =>
    simp only [getType, hev] at hc ⊢
    unfold baseCls at hc ⊢
    have hsp : specialCls ⟨compWord u ++ ' ' :: tag, [], b.quals⟩ = none := rfl
    obtain ⟨s1, s2⟩ := compWord_starts u tag
    simp only [if_true, hsp, hnt, s1, s2] at hc ⊢
    rw [if_pos (by cases u <;> rfl)] at hc ⊢
    cases htag : resolveAlias.tagOf e (compWord u ++ ' ' :: tag) with
    | error x => simp [htag] at hc
    | ok tag' =>
      obtain ⟨rfl, hdd⟩ := tagOf_tag' ht u tag tag' htag
      simp only [htag, Bool.not_not] at hc ⊢
      have hk := keeps_struct (e := e) (keeps_getType ht n) st u tag' hdd
      cases hg : getStruct e (getType e n) st u tag' with
      | mk res st1 =>
        rw [hg] at hk
        simp only [hg] at hc ⊢
        cases res with
        | error x => simp at hc
        | ok c1 =>
          obtain ⟨id, rfl, hid⟩ := hk.2 c1 rfl
          simp only [mergeMods, List.length_nil, applyMods] at hc ⊢
          simp at hc; subst hc
          refine ⟨id, rfl, hid, fun n' st' hl => ?_⟩
          unfold getStruct
          rw [hl _ _ hid]

/-- C49: different tags have different classes. -/
theorem C49_distinct (hw : CtWorld e own) {ks : List Nat} {st : CtState} (hr : CtReach e own dim ks st)
    (tag tag' : Str) (id : Nat) (h : dget st.structs tag = some id) (h' : dget st.structs tag' = some id) : tag = tag' := by
  obtain ⟨c, hc, hn⟩ := (ctReach_inv hw hr).1.cls.tag tag id h
  obtain ⟨c', hc', hn'⟩ := (ctReach_inv hw hr).1.cls.tag tag' id h'
  rw [hc] at hc'; cases hc'
  rw [← hn, hn']

/-- C49: recursive structs end.  Unless a typedef is a parameter type of itself, the recursion of
`_get_type` has a bound that depends only on the type and the number of tags; structs that contain
pointers to themselves or to each other are fine. -/
theorem C49_terminates (ht : TagsOk e) (hmap : MapMatch e.tm) (hf : ∀ m ∈ allMembers e, FiniteParams e m.type)
    (t : CType) (hft : FiniteParams e t) : ∃ N, ∀ n st, N ≤ n →
      (getType e n st t).1 ≠ .error .recursionError ∧ getType e n st t = getType e N st t := by
  obtain ⟨N, hN⟩ := ends_getType ht hmap hf
    (dkeys (e.defs .structs) ++ dkeys (e.defs .unions)).length t hft
  have ho : ∀ st, openTags e st ≤ (dkeys (e.defs .structs) ++ dkeys (e.defs .unions)).length :=
    fun st => List.length_filter_le _ _
  exact ⟨N, fun n st hn => ⟨hN n hn st (ho st), agrees_more hn st t (hN N (Nat.le_refl _) st (ho st))⟩⟩

/-! ### C50 -/

theorem anonMember_fresh (members : List Str) : anonMember members ∉ members ∧
    ∃ k, anonMember members = c%"anon_member" ++ natDigits k := by
  have hu : ∀ n, dhas (members.map fun m => (m, DefVal.enum [])) n = decide (n ∈ members) := by
    intro n
    unfold dhas
    by_cases h : n ∈ members
    · rw [decide_eq_true h, dget_isSome_iff]
      simpa [dkeys, Function.comp_def] using h
    · rw [decide_eq_false h]
      cases hd : dget (members.map fun m => (m, DefVal.enum [])) n with
      | none => rfl
      | some v =>
        exfalso
        apply h
        have := dget_some_mem hd
        simp at this
        exact this.1
  have he : anonMember members = anonName c%"anon_member" (members.map fun m => (m, DefVal.enum [])) := by
    unfold anonMember anonName
    rw [List.length_map]
    congr 1
    funext n
    exact (hu n).symm
  obtain ⟨h1, k, _, h2, _⟩ := C34_fresh c%"anon_member" (members.map fun m => (m, DefVal.enum []))
  rw [← he, hu] at h1
  exact ⟨by simpa using h1, k, by rw [he, h2]⟩

/-- What the names of the fields are: the declared names; for members without a name a generated one, different
from those of the members before it. -/
def FieldNames (ms : List Member) (names : List Str) : Prop :=
  names.length = ms.length ∧ ∀ (j : Nat) (m : Member), ms[j]? = some m →
    (∀ n, m.name = some n → names[j]? = some n) ∧
    (m.name = none → ∃ k, names[j]? = some (c%"anon_member" ++ natDigits k) ∧ c%"anon_member" ++ natDigits k ∉ names.take j)

theorem nameMembers_spec (ms : List Member) : ∀ (names anon : List Str),
    ∃ rest, (nameMembers names anon ms).1 = names ++ rest ∧ rest.length = ms.length ∧
    (∀ (j : Nat) (m : Member), ms[j]? = some m → (∀ n, m.name = some n → rest[j]? = some n) ∧
      (m.name = none → ∃ k, rest[j]? = some (c%"anon_member" ++ natDigits k) ∧
        c%"anon_member" ++ natDigits k ∉ names ++ rest.take j)) ∧
    (∀ n, n ∈ (nameMembers names anon ms).2 ↔ n ∈ anon ∨ ∃ (j : Nat) (m : Member), ms[j]? = some m ∧ m.name = none ∧ rest[j]? = some n) := by
  induction ms with
  | nil => intro names anon; exact ⟨[], by simp [nameMembers], rfl, by simp, by simp [nameMembers]⟩
  | cons x ms ih =>
    intro names anon
    cases hx : x.name with
    | some y =>
      obtain ⟨rest, h1, h2, h3, h4⟩ := ih (names ++ [y]) anon
      refine ⟨y :: rest, by simp [nameMembers, hx, h1], by simp [h2], fun j m hm => ?_, fun n => ?_⟩
      · cases j with
        | zero => simp at hm; subst hm; rw [hx]; simp
        | succ j =>
          have := h3 j m (by simpa using hm)
          simpa [List.append_assoc] using this
      · simp only [nameMembers, hx]
        rw [h4]
        constructor
        · rintro (h | ⟨j, m, hm, hn, hr⟩)
          · exact .inl h
          · exact .inr ⟨j + 1, m, by simpa using hm, hn, by simpa using hr⟩
        · rintro (h | ⟨j, m, hm, hn, hr⟩)
          · exact .inl h
          · cases j with
            | zero => simp at hm; subst hm; rw [hx] at hn; cases hn
            | succ j => exact .inr ⟨j, m, by simpa using hm, hn, by simpa using hr⟩
    | none =>
      obtain ⟨hf, k, hk⟩ := anonMember_fresh names
      obtain ⟨rest, h1, h2, h3, h4⟩ := ih (names ++ [anonMember names]) (anon ++ [anonMember names])
      refine ⟨anonMember names :: rest, by simp [nameMembers, hx, h1], by simp [h2], fun j m hm => ?_, fun n => ?_⟩
      · cases j with
        | zero =>
          simp at hm; subst hm
          refine ⟨fun n hn => (by rw [hx] at hn; cases hn), fun _ => ⟨k, by simp [hk], by rw [← hk]; simpa using hf⟩⟩
        | succ j =>
          have := h3 j m (by simpa using hm)
          simpa [List.append_assoc] using this
      · simp only [nameMembers, hx]
        rw [h4]
        constructor
        · rintro (h | ⟨j, m, hm, hn, hr⟩)
          · rcases List.mem_append.1 h with h | h
            · exact .inl h
            · simp at h
              exact .inr ⟨0, x, rfl, hx, by simp [h]⟩
          · exact .inr ⟨j + 1, m, by simpa using hm, hn, by simpa using hr⟩
        · rintro (h | ⟨j, m, hm, hn, hr⟩)
          · exact .inl (by simp [h])
          · cases j with
            | zero => simp at hr; exact .inl (by simp [hr])
            | succ j => exact .inr ⟨j, m, by simpa using hm, hn, by simpa using hr⟩

/-- C50 (partial: the third element of a field is the recorded value of the member, not its bit width, and a
generated name can be that of a later member): in every state, a finished class belongs to a definition and
has its packing; its fields are the members in order, with the declared types; anonymous are exactly the
members without name. -/
theorem C50_fields_partial (hw : CtWorld e own) {ks : List Nat} {st : CtState} (hr : CtReach e own dim ks st)
    (tag : Str) (id : Nat) (c : CompCls) (fs : List (Str × Cls × PVal)) (ht : dget st.structs tag = some id)
    (hc : st.classes[id]? = some c) (hf : c.fields = some fs) :
    c.name = tag ∧ ∃ ms names, dget (e.defs (compKind c.union)) tag = some (.compound ms c.pack) ∧
      FieldNames ms names ∧ fs.map (·.1) = names ∧ fs.map (·.2.2) = ms.map (·.val) ∧
      (∀ n, n ∈ c.anon ↔ ∃ (j : Nat) (m : Member), ms[j]? = some m ∧ m.name = none ∧ names[j]? = some n) ∧
      ∀ (j : Nat) (m : Member), ms[j]? = some m → ∃ f, fs[j]? = some f ∧
        ∀ v, Means e.cfg e.tm dim m.type v → Mirrors e.types st.structs f.2.1 v := by
  have hcls := (ctReach_inv hw hr).1.cls
  obtain ⟨c', hc', hn⟩ := hcls.tag tag id ht
  rw [hc] at hc'; cases hc'
  obtain ⟨ms, h1, h2, h3⟩ := hcls.defn id c hc
  obtain ⟨hlen, hfs⟩ := h3 fs hf
  obtain ⟨rest, r1, r2, r3, r4⟩ := nameMembers_spec ms [] []
  rw [List.nil_append] at r1
  rw [r1] at hlen hfs
  have hzl : (rest.zip ms).length = ms.length := by rw [List.length_zip, r2]; simp
  have hfl : fs.length = ms.length := by rw [hlen, hzl]
  have hz : ∀ (j : Nat) (m : Member), ms[j]? = some m → ∃ n c, rest[j]? = some n ∧ fs[j]? = some (n, c, m.val) ∧
      ∀ v, Means e.cfg e.tm dim m.type v → Mirrors e.types st.structs c v := by
    intro j m hm
    have hj := (List.getElem?_eq_some_iff.1 hm).1
    have hrj : rest[j]? = some rest[j] := List.getElem?_eq_getElem (by omega)
    obtain ⟨c, hc, hv⟩ := hfs j rest[j] m (by rw [List.getElem?_zip_eq_some]; exact ⟨hrj, hm⟩)
    exact ⟨rest[j], c, hrj, hc, hv⟩
  refine ⟨hn, ms, rest, by rw [← hn]; exact h1, ⟨r2, fun j m hm => by simpa using r3 j m hm⟩, ?_, ?_, ?_, ?_⟩
  · apply List.ext_getElem?
    intro j
    rw [List.getElem?_map]
    by_cases hj : j < ms.length
    · obtain ⟨n, c, q1, q2, _⟩ := hz j ms[j] (List.getElem?_eq_getElem hj)
      rw [q1, q2]; rfl
    · rw [List.getElem?_eq_none (by omega), List.getElem?_eq_none (by omega)]; rfl
  · apply List.ext_getElem?
    intro j
    rw [List.getElem?_map, List.getElem?_map]
    by_cases hj : j < ms.length
    · obtain ⟨n, c, q1, q2, _⟩ := hz j ms[j] (List.getElem?_eq_getElem hj)
      rw [q2, List.getElem?_eq_getElem hj]; rfl
    · rw [List.getElem?_eq_none (by omega), List.getElem?_eq_none (by omega)]; rfl
  · intro n
    rw [h2, r4]
    simp
  · intro j m hm
    obtain ⟨n, c, q1, q2, q3⟩ := hz j m hm
    exact ⟨_, q2, q3⟩

/-! ### C52 -/

/-- The class of `T x[d1]...[dn]`. -/
def nestArr (c : Cls) : List Int → Cls
  | [] => c
  | d :: ds => .arr d (nestArr c ds)

/-- C52: for every shape with non-negative sizes, `build_array` makes the class of the C array with the first
dimension outermost; a negative size raises. -/
theorem C52_shape (c : Cls) (size : List Int) (hc : c ≠ .void) (hs : ∀ d ∈ size, 0 ≤ d) :
    arrayCls c size = .ok (nestArr c size) := by
  unfold arrayCls
  induction size with
  | nil => rfl
  | cons d ds ih =>
    rw [List.reverse_cons, List.foldl_append, ih (fun x hx => hs x (by simp [hx]))]
    have h1 : nestArr c ds ≠ .void := by
      cases ds with
      | nil => exact hc
      | cons => simp [nestArr]
    have h2 : ¬ d < 0 := by have := hs d (by simp); omega
    simp only [List.foldl_cons, List.foldl_nil, nestArr]
    cases hn : nestArr c ds with
    | void => exact (h1 hn).elim
    | _ => simp only [mkArr, h2, if_false]

theorem C52_negative (c : Cls) (size : List Int) (h : ∃ d ∈ size, d < 0) : ∃ x, arrayCls c size = .error x := by
  unfold arrayCls
  have key : ∀ (l : List Int) (r : Except PyErr Cls), ((∃ x, r = .error x) ∨ ∃ d ∈ l, d < 0) →
      ∃ x, l.foldl (fun r s => match r with
        | .error e => .error e
        | .ok c => mkArr c (some s)) r = .error x := by
    intro l
    induction l with
    | nil => rintro r (h | ⟨d, hd, _⟩); exact h; cases hd
    | cons d l ih =>
      intro r h
      simp only [List.foldl_cons]
      apply ih
      rcases h with ⟨x, rfl⟩ | ⟨d', hd', hneg⟩
      · exact .inl ⟨x, rfl⟩
      · rcases List.mem_cons.1 hd' with rfl | hd'
        · left
          cases r with
          | error x => exact ⟨x, rfl⟩
          | ok c => cases c <;> simp [mkArr, hneg]
        · exact .inr ⟨d', hd', hneg⟩
  obtain ⟨d, hd, hneg⟩ := h
  exact key _ _ (.inr ⟨d, by simpa using hd, hneg⟩)

example : arrayCls (.prim c%"c_int") [2, 3] = .ok (.arr 2 (.arr 3 (.prim c%"c_int"))) := by rfl

end


/-! ### C47: calling conventions -/

/-- C47: a function pointer declared `__stdcall` becomes a `WINFUNCTYPE`, any other a `CFUNCTYPE`. -/
theorem C47_convention (e : CtEnv) (n : Nat) (st : CtState) (t r : CType) (c : Cls) (ps : List Param) (conv : Option Str)
    (hev : evalType e.cfg e.tm t = .ok r) (hcv : ∀ x, conv = some x → isConv x = true)
    (hm : r.mods = .fn ps :: ((conv.map CMod.sym).toList ++ [.sym c%"*"]))
    (hc : (getType e (n + 1) st t).1 = .ok c) :
    ∃ ret args, c = .fn (decide (conv = some c%"__stdcall")) ret args ∧ args.length = ps.length := by
  have hlen : ∀ (rec : CtState → CType → Except PyErr Cls × CtState) (ps : List Param) (st : CtState) (cs : List Cls),
      (argClasses rec st ps).1 = .ok cs → cs.length = ps.length := by
    intro rec ps
    induction ps with
    | nil => intro st cs h; simp [argClasses] at h; subst h; rfl
    | cons p ps ih =>
      intro st cs h
      simp only [argClasses] at h
      cases h1 : rec st p.2.1 with
      | mk r1 st1 =>
        rw [h1] at h
        cases r1 with
        | error x => simp at h
        | ok c1 =>
          simp only at h
          cases h2 : argClasses rec st1 ps with
          | mk r2 st2 =>
            rw [h2] at h
            cases r2 with
            | error x => simp at h
            | ok c2 =>
              simp at h; subst h
              have := ih st1 c2 (by rw [h2])
              simp [this]
  simp only [getType, hev] at hc
  cases hb : baseCls e (getType e n) true st r with
  | mk res st1 =>
    rw [hb] at hc
    cases res with
    | error x => simp at hc
    | ok cm =>
      obtain ⟨c0, ms⟩ := cm
      have hms : ms = r.mods := by
        unfold baseCls at hb
        have hsp : specialCls r = none := by unfold specialCls; rw [hm]
        simp only [if_true, hsp] at hb
        cases hd : dget e.types r.spec with
        | some p => simp [hd] at hb; exact hb.1.2.symm
        | none =>
          simp only [hd] at hb
          split at hb
          · cases htag : resolveAlias.tagOf e r.spec with
            | error x => simp [htag] at hb
            | ok tag =>
              simp only [htag] at hb
              cases hg : getStruct e (getType e n) st (!startsWith r.spec c%"struct ") tag with
              | mk r2 st2 =>
                rw [hg] at hb
                cases r2 with
                | error x => simp at hb
                | ok c2 => simp at hb; exact hb.1.2.symm
          · split at hb
            · simp at hb; exact hb.1.2.symm
            · split at hb
              · simp at hb; exact hb.1.2.symm
              · simp at hb
      subst hms
      have key : ∀ (std : Bool) (k : Nat) (st : CtState) (rest : List CMod), findPtr 2 false false rest = (true, std, []) →
          rest ≠ [] →
          (applyMods e.cfg.win32 (getType e n) (k + 1) st c0 (.fn ps :: rest)).1 = .ok c →
          ∃ ret args, c = .fn std ret args ∧ args.length = ps.length := by
        intro std k st rest hf hne h
        cases rest with
        | nil => exact (hne rfl).elim
        | cons m0 rest =>
        simp only [applyMods, hf] at h
        simp at h
        split at h
        · simp at h
        · cases ha : argClasses (getType e n) st ps with
          | mk r3 st3 =>
            rw [ha] at h
            cases r3 with
            | error x => simp at h
            | ok args =>
              simp only at h
              unfold mkFn at h
              split at h
              · rename_i heq
                split at heq <;> simp at heq h
              · rename_i c' heq
                split at heq
                · simp at heq
                · simp at heq; subst heq
                  cases k <;> (simp only [applyMods] at h; simp at h; subst h; exact ⟨_, _, rfl, hlen _ _ _ _ (by rw [ha])⟩)
      cases conv with
      | none =>
        rw [hm] at hc
        exact key false _ _ _ (by rfl) (by simp) hc
      | some x =>
        have hx := hcv x rfl
        rw [hm] at hc
        have : x = c%"__stdcall" ∨ x = c%"__cdecl" := by simpa [isConv] using hx
        rcases this with rfl | rfl
        · exact key true _ _ _ (by rfl) (by simp) hc
        · exact key false _ _ _ (by rfl) (by simp) hc

/-! ### C51 -/

/-- Only `char` is ctypes' `c_char`, only `wchar` and `wchar_t` are `c_wchar`, and `void` is no simple type. -/
structure CharTypes (types : Dict Str Str) : Prop where
  char : ∀ s, dget types s = some c%"c_char" ↔ s = c%"char"
  wchar : ∀ s, dget types s = some c%"c_wchar" ↔ s = c%"wchar" ∨ s = c%"wchar_t"
  void : dget types c%"void" = none

theorem ctypesTable_charTypes : CharTypes ctypesTable := by
  refine ⟨fun s => ⟨fun h => ?_, fun h => by subst h; rfl⟩, fun s => ⟨fun h => ?_, ?_⟩, rfl⟩
  · have := dget_some_mem h
    simpa [ctypesTable] using this
  · have := dget_some_mem h
    simpa [ctypesTable] using this
  · rintro (rfl | rfl) <;> rfl

/-- A base without the dedicated pointer classes: both modes of `_get_type` use the same base class. -/
theorem getBase_plain (e : CtEnv) (n : Nat) (st : CtState) (t r : CType) (hev : evalType e.cfg e.tm t = .ok r)
    (hs : specialPtr r.spec = none) (ht : CharTypes e.types) :
    baseCls e (getType e n) true st r = baseCls e (getType e n) false st r ∧
    ∀ c ms st', baseCls e (getType e n) false st r = (.ok (c, ms), st') → ms = r.mods ∧ getPointer.special c = none ∧ c ≠ .void := by
  have hsp : specialCls r = none := by
    unfold specialCls
    split
    · rw [ptrTypes_special, hs]; simp
    · rfl
  refine ⟨by unfold baseCls; simp [hsp], fun c ms st' h => ?_⟩
  have hch : r.spec ≠ c%"char" ∧ ¬ (r.spec = c%"wchar" ∨ r.spec = c%"wchar_t") ∧ r.spec ≠ c%"void" := by
    unfold specialPtr at hs
    refine ⟨fun h => ?_, fun h => ?_, fun h => ?_⟩
    · rw [h] at hs; simp at hs
    · rcases h with h | h <;> (rw [h] at hs; simp at hs)
    · rw [h] at hs; simp at hs
  unfold baseCls at h
  simp only [Bool.false_eq_true, if_false] at h
  cases hd : dget e.types r.spec with
  | some p =>
    simp [hd] at h
    obtain ⟨⟨rfl, rfl⟩, rfl⟩ := h
    refine ⟨rfl, ?_, by simp⟩
    have q1 : p ≠ c%"c_char" := fun hp => hch.1 ((ht.char _).1 (by rw [hd, hp]))
    have q2 : p ≠ c%"c_wchar" := fun hp => hch.2.1 ((ht.wchar _).1 (by rw [hd, hp]))
    simp [getPointer.special, q1, q2]
  | none =>
    simp only [hd] at h
    split at h
    · cases htag : resolveAlias.tagOf e r.spec with
      | error x => simp [htag] at h
      | ok tag =>
        simp only [htag] at h
        have hcomp : ∀ u tg st c st', getStruct e (getType e n) st u tg = (.ok c, st') → ∃ id, c = .comp id := by
          intro u tg st c st' hg
          unfold getStruct at hg
          split at hg
          · simp at hg; exact ⟨_, hg.1.symm⟩
          · split at hg
            · simp at hg
            · split at hg
              · simp only at hg
                split at hg
                · simp at hg
                · split at hg
                  · simp at hg
                  · simp at hg; exact ⟨_, hg.1.symm⟩
              · simp at hg
              · simp at hg
        cases hg : getStruct e (getType e n) st (!startsWith r.spec c%"struct ") tag with
        | mk r2 st2 =>
          rw [hg] at h
          cases r2 with
          | error x => simp at h
          | ok c2 =>
            obtain ⟨id, rfl⟩ := hcomp _ _ _ _ _ hg
            simp at h
            obtain ⟨⟨rfl, rfl⟩, rfl⟩ := h
            exact ⟨rfl, rfl, by simp⟩
    · split at h
      · simp at h
        obtain ⟨⟨rfl, rfl⟩, rfl⟩ := h
        exact ⟨rfl, rfl, by simp⟩
      · rw [if_neg hch.2.2] at h; simp at h

/-- C51 (partial: not `char*`, `wchar_t*` and `void*`): for a parameter that is a one- or two-level pointer
the object made has exactly the class of the declared type.  `void**` and `char**` are included. -/
theorem C51_pointer_partial (e : CtEnv) (n : Nat) (st : CtState) (t r : CType) (ht : CharTypes e.types)
    (hev : evalType e.cfg e.tm t = .ok r) (hm : r.mods = [.sym c%"*"] ∧ specialPtr r.spec = none ∨ r.mods = [.sym c%"*", .sym c%"*"]) :
    getPointer e n st r t = getType e (n + 1) st t := by
  cases hs : specialPtr r.spec with
  | none =>
    obtain ⟨h1, h2⟩ := getBase_plain e n st t r hev hs ht
    simp only [getPointer, getType, getBase, hev, h1]
    have hlen : r.mods.length = 1 ∨ r.mods.length = 2 := by rcases hm with ⟨hm, _⟩ | hm <;> simp [hm]
    rw [if_neg (by omega)]
    rw [if_neg (by rcases hm with ⟨hm, _⟩ | hm <;> simp [hm]), if_pos (by rcases hm with ⟨hm, _⟩ | hm <;> simp [hm])]
    cases hb : baseCls e (getType e n) false st r with
    | mk res st1 =>
      cases res with
      | error x => rfl
      | ok cm =>
        obtain ⟨c, ms⟩ := cm
        obtain ⟨rfl, h3, h4⟩ := h2 c ms st1 hb
        simp only [h3]
        rcases hm with ⟨hm, _⟩ | hm <;> rw [hm] <;> rfl
  | some p =>
    rcases hm with ⟨_, hm⟩ | hm
    · rw [hm] at hs; cases hs
    · have hsp : specialCls r = some (p, [.sym c%"*"]) := by
        unfold specialCls; rw [hm]; simp only [if_true]; rw [ptrTypes_special, hs]; rfl
      have hbase : ∃ c, baseCls e (getType e n) false st r = (.ok (c, r.mods), st) ∧ getPointer.special c = some p := by
        unfold baseCls
        simp only [Bool.false_eq_true, if_false]
        unfold specialPtr at hs
        by_cases q1 : r.spec = c%"char"
        · rw [q1] at hs; simp at hs; subst hs
          rw [(ht.char _).2 q1]; exact ⟨_, rfl, rfl⟩
        · by_cases q2 : r.spec = c%"wchar" ∨ r.spec = c%"wchar_t"
          · rw [if_neg q1, if_pos q2] at hs; simp at hs; subst hs
            rw [(ht.wchar _).2 q2]; exact ⟨_, rfl, rfl⟩
          · by_cases q3 : r.spec = c%"void"
            · rw [q3] at hs; simp at hs; subst hs
              rw [q3, ht.void]; exact ⟨_, rfl, rfl⟩
            · rw [if_neg q1, if_neg q2, if_neg q3] at hs; cases hs
      obtain ⟨c, hb, hc⟩ := hbase
      simp only [getPointer, getType, getBase, hev, hb, hc]
      rw [hm]
      have hb2 : baseCls e (getType e n) true st r = (.ok (.prim p, [.sym c%"*"]), st) := by
        unfold baseCls; simp [hsp]
      rw [hb2]
      rfl

/-! ### An example world -/

section
/-- A `Type` object without qualifiers. -/
def ctTy (spec : Str) (mods : List CMod) : CType := ⟨spec, mods, List.replicate (1 + mods.length) (some [])⟩

def ctArr (i : Int) : CMod := .arr [some i]
def ctPtr : CMod := .sym c%"*"

/-- `struct node { int grid[2][3]; struct node *next; cb_t cb; vec v; };`
`typedef int (*cb_t)(struct node *, char *); typedef double vec[4];` -/
def exDefs : KDefs DefVal
  | .types => [(c%"struct node", .type (ctTy c%"struct" [.sym c%"node"])),
      (c%"cb_t", .type (ctTy c%"int" [.fn [(none, ctTy c%"struct node" [ctPtr], none), (none, ctTy c%"char" [ctPtr], none)], ctPtr])),
      (c%"vec", .type (ctTy c%"double" [ctArr 0]))]
  | .structs => [(c%"node", .compound [⟨some c%"grid", ctTy c%"int" [ctArr 1, ctArr 2], .none, none⟩,
      ⟨some c%"next", ctTy c%"struct node" [ctPtr], .none, none⟩, ⟨some c%"cb", ctTy c%"cb_t" [], .none, none⟩,
      ⟨some c%"v", ctTy c%"vec" [], .none, none⟩] none)]
  | _ => []

def exEnv : CtEnv := ⟨⟨false, false, []⟩, exDefs, ctypesTable⟩

/-- The lengths of the brackets. -/
def exDim (i : Int) : Option Int := if i = 0 then some 4 else if i = 1 then some 2 else if i = 2 then some 3 else some 7

def exOwn (i : Int) : Owner :=
  if i = 0 then .shared else if i = 1 ∨ i = 2 then .member false c%"node" 0 else .top 0

def exStart : CtState := ⟨fun i => [exDim i], [], []⟩

def noAdjB : List CMod → Bool
  | .arr _ :: .arr _ :: _ => false
  | _ :: ms => noAdjB ms
  | [] => true

theorem noAdjB_ok (l : List CMod) (h : noAdjB l = true) : NoAdj l := by
  induction l with
  | nil => intro a b x y hl; simp at hl
  | cons m l ih =>
    intro a b x y hl
    cases x with
    | nil =>
      simp at hl
      obtain ⟨rfl, rfl⟩ := hl
      simp [noAdjB] at h
    | cons z x =>
      simp at hl
      refine ih ?_ a b x y hl.2
      unfold noAdjB at h
      split at h
      · cases h
      · rename_i heq; cases heq; exact h
      · rename_i heq; cases heq

def fnPtrsB (win32 : Bool) : List CMod → Bool
  | [] => true
  | .arr _ :: ms => fnPtrsB win32 ms
  | .sym s :: ms => (s == c%"*" || s == c%"&") && fnPtrsB win32 ms
  | .fn _ :: .sym s :: ms => s == c%"*" && fnPtrsB win32 ms && (match ms with | .sym s :: _ => s != c%"*" | _ => true)
  | .fn _ :: _ => false

theorem fnPtrsB_ok (w : Bool) (l : List CMod) (h : fnPtrsB w l = true) : FnPtrs w l := by
  induction l using fnPtrsB.induct with
  | case1 => trivial
  | case2 d ms ih => exact ih h
  | case3 s ms ih => simp [fnPtrsB] at h; exact ⟨h.1, ih h.2⟩
  | case4 ps s ms ih =>
    simp [fnPtrsB] at h
    refine .inl ⟨h.1.1, ih h.1.2, ?_⟩
    cases ms with
    | nil => simp
    | cons m ms =>
      cases m with
      | sym s => simpa using h.2
      | _ => simp
  | case5 ps ms hn => 
    unfold fnPtrsB at h
    split at h <;> simp_all

def tyGoodB (e : CtEnv) (own : Int → Owner) (o : Owner) (t : CType) : Bool :=
  t.quals.length == 1 + t.mods.length && t.quals.head?.all (·.isSome) &&
  t.mods.all (fun m => match m with | .arr [some _] => true | .arr _ => false | _ => true) &&
  (idsOf t.mods).all (fun i => own i == o) && decide (idsOf t.mods).Nodup &&
  match evalType e.cfg e.tm t with
  | .error _ => true
  | .ok r => fnPtrsB e.cfg.win32 r.mods && (o != .shared || noAdjB r.mods) &&
      noAdjB (r.mods.take (r.mods.length - t.mods.length) ++ t.mods.take 1)

theorem tyGoodB_ok {e : CtEnv} (hm : MapMatch e.tm) {own : Int → Owner} {o : Owner} {t : CType}
    (h : tyGoodB e own o t = true) : TyGood e own o t := by
  simp only [tyGoodB, Bool.and_eq_true, decide_eq_true_eq, beq_iff_eq, List.all_eq_true] at h
  obtain ⟨⟨⟨⟨⟨h1, h2⟩, h3⟩, h4⟩, h5⟩, h6⟩ := h
  refine ⟨h1, ?_, ?_, h4, h5, fun b hb => ?_⟩
  · intro q hq hn; subst hn
    rw [Option.mem_def] at hq
    rw [hq] at h2; simp at h2
  · intro d hd
    have := h3 _ hd
    split at this
    · rename_i heq; cases heq; exact ⟨_, rfl⟩
    · cases this
    · rename_i hne; exact (hne _ rfl).elim
  · have hev := (C01_result _ _ t _ hm h1).2 ⟨b, hb, rfl⟩
    rw [hev] at h6
    simp only [Bool.and_eq_true, Bool.or_eq_true, bne_iff_ne, ne_eq] at h6
    refine ⟨fnPtrsB_ok _ _ h6.1.1, fun ho => noAdjB_ok _ (h6.1.2.resolve_left (by simp [ho])), fun pre hp => ?_⟩
    have : pre = b.mods.take (b.mods.length - t.mods.length) := by rw [hp]; simp
    rw [this]
    exact noAdjB_ok _ h6.2

theorem exTm (s : Str) (pt : CType) (h : dget exEnv.tm s = some pt) :
    s = c%"struct node" ∧ pt = ctTy c%"struct" [.sym c%"node"] ∨
    s = c%"cb_t" ∧ pt = ctTy c%"int" [.fn [(none, ctTy c%"struct node" [ctPtr], none), (none, ctTy c%"char" [ctPtr], none)], ctPtr] ∨
    s = c%"vec" ∧ pt = ctTy c%"double" [ctArr 0] := by
  have := dget_some_mem h
  simpa [exEnv, CtEnv.tm, exDefs, typeTable] using this

theorem ctExMap : MapMatch exEnv.tm := by
  intro s pt h
  rcases exTm s pt h with ⟨_, rfl⟩ | ⟨_, rfl⟩ | ⟨_, rfl⟩ <;> rfl

theorem exComp (u : Bool) (tag : Str) (d : DefVal) (h : dget (exEnv.defs (compKind u)) tag = some d) :
    u = false ∧ tag = c%"node" ∧ d = .compound [⟨some c%"grid", ctTy c%"int" [ctArr 1, ctArr 2], .none, none⟩,
      ⟨some c%"next", ctTy c%"struct node" [ctPtr], .none, none⟩, ⟨some c%"cb", ctTy c%"cb_t" [], .none, none⟩,
      ⟨some c%"v", ctTy c%"vec" [], .none, none⟩] none := by
  have := dget_some_mem h
  cases u with
  | true => simp [exEnv, exDefs, compKind] at this
  | false => simpa [exEnv, exDefs, compKind] using this

theorem inside_noFn {u t : CType} (h : Inside u t) (hf : ∀ ps, .fn ps ∉ t.mods) : u = t := by
  cases h with
  | refl => rfl
  | param _ _ ps p hfn _ _ => exact (hf ps hfn).elim

theorem exTags : TagsOk exEnv := by
  intro u tag pt h
  rcases exTm _ _ h with ⟨h1, rfl⟩ | ⟨h1, rfl⟩ | ⟨h1, rfl⟩
  · cases u with
    | true => simp [compWord] at h1
    | false => simp [compWord] at h1; subst h1; exact ⟨rfl, rfl⟩
  · cases u <;> simp [compWord] at h1
  · cases u <;> simp [compWord] at h1

theorem exWorld : CtWorld exEnv exOwn := by
  refine ⟨fun s pt u h hi => ?_, exTags, fun u tag ms pack j m h hm => ?_⟩
  · rcases exTm _ _ h with ⟨_, rfl⟩ | ⟨_, rfl⟩ | ⟨_, rfl⟩
    · rw [inside_noFn hi (by simp [ctTy])]
      exact tyGoodB_ok ctExMap rfl
    · cases hi with
      | refl => exact tyGoodB_ok ctExMap rfl
      | param _ _ ps p hf hp h =>
        simp [ctTy, ctPtr] at hf
        subst hf
        simp at hp
        rcases hp with rfl | rfl
        · rw [inside_noFn h (by simp [ctPtr])]; exact tyGoodB_ok ctExMap rfl
        · rw [inside_noFn h (by simp [ctPtr])]; exact tyGoodB_ok ctExMap rfl
    · rw [inside_noFn hi (by simp [ctTy, ctArr])]
      exact tyGoodB_ok ctExMap rfl
  · obtain ⟨rfl, rfl, hd⟩ := exComp _ _ _ h
    cases hd
    match j, hm with
    | 0, hm => cases hm; exact ⟨tyGoodB_ok ctExMap rfl, by simp [ctTy, ctArr]⟩
    | 1, hm => cases hm; exact ⟨tyGoodB_ok ctExMap rfl, by simp [ctTy, ctPtr]⟩
    | 2, hm => cases hm; exact ⟨tyGoodB_ok ctExMap rfl, by simp [ctTy]⟩
    | 3, hm => cases hm; exact ⟨tyGoodB_ok ctExMap rfl, by simp [ctTy]⟩

/-- The type `struct node *[7]` of a variable. -/
def exVar : CType := ctTy c%"struct node" [ctPtr, ctArr 3]

example : CtReach exEnv exOwn exDim [] exStart := .init _ (fun _ => rfl)
example : TyOk exEnv exOwn (.top 0) exVar := ⟨tyGoodB_ok ctExMap rfl, by simp [exVar, ctTy, ctPtr, ctArr]⟩
example : TyOk exEnv exOwn .shared (ctTy c%"vec" [ctPtr]) := ⟨tyGoodB_ok ctExMap rfl, by simp [ctTy, ctPtr]⟩
example : (getType exEnv 5 exStart exVar).1 = .ok (.arr 7 (.ptr (.comp 0))) := by rfl
example : Means exEnv.cfg exEnv.tm exDim exVar (.arr (some 7) (.ptr (.base c%"struct node"))) :=
  .fund _ _ (.inl ⟨_, rfl⟩) (.ptr _ _ _ (.arrs 3 [] _ [] _ (by simp) (.nil _)))


theorem exCb : Means exEnv.cfg exEnv.tm exDim (ctTy c%"cb_t" [])
    (.ptr (.fn [(none, .ptr (.base c%"struct node")), (none, .ptr (.base c%"char"))] (.base c%"int"))) := by
  refine .typedef _ _ _ _ (by rw [← isFund_iff]; decide) rfl (.fund _ _ (by rw [← isFund_iff]; decide) ?_) (.nil _)
  refine .fn _ _ _ _ _ (.cons _ _ _ _ _ _ ?_ (.cons _ _ _ _ _ _ ?_ .nil)) (.ptr _ _ _ (.nil _))
  · exact .fund _ _ (by rw [← isFund_iff]; decide) (.ptr _ _ _ (.nil _))
  · exact .fund _ _ (by rw [← isFund_iff]; decide) (.ptr _ _ _ (.nil _))

theorem exKnown : KnownTag exEnv false c%"node" := ⟨_, rfl⟩

theorem exNode : Buildable exEnv.types (KnownTag exEnv) (.base c%"struct node") := .struct c%"node" exKnown

theorem exBuild : CtBuild exEnv exDim := by
  refine ⟨fun u tag d h => ?_, fun u tag ms pack m h hm => ?_, fun s pt h => ?_, fun u tag => ?_⟩
  · exact ⟨_, _, (exComp _ _ _ h).2.2⟩
  · obtain ⟨rfl, rfl, hd⟩ := exComp _ _ _ h
    cases hd
    simp only [List.mem_cons, List.not_mem_nil, or_false] at hm
    have hne : ∀ (n : Str) (k : Nat) (n' : Str), n'.take 1 ≠ ['a'] → some n' = some n → n ≠ c%"anon_member" ++ natDigits k := by
      intro n k n' h1 h2 h3
      cases h2; subst h3
      exact h1 rfl
    rcases hm with rfl | rfl | rfl | rfl
    · refine ⟨.arr (some 2) (.arr (some 3) (.base c%"int")), .fund _ _ (by rw [← isFund_iff]; decide) ?_,
        .arr _ _ (by decide) (by simp) (.arr _ _ (by decide) (by simp) (.prim _ _ (by rfl))), by simp, by simp, fun n k h => hne n k _ (by simp) h⟩
      exact .arrs 1 [2] _ [] _ (by simp) (.nil _)
    · exact ⟨.ptr (.base c%"struct node"), .fund _ _ (by rw [← isFund_iff]; decide) (.ptr _ _ _ (.nil _)), .ptr _ exNode, by simp, by simp,
        fun n k h => hne n k _ (by simp) h⟩
    · refine ⟨_, exCb, .fnptr _ _ (.prim _ _ (by rfl)) ?_ ?_, by simp, by simp, fun n k h => hne n k _ (by simp) h⟩
      · simp
      · simp only [List.mem_cons, List.not_mem_nil, or_false]
        rintro x (rfl | rfl)
        · exact .ptr _ exNode
        · exact .ptr _ (.prim _ _ (by rfl))
    · refine ⟨.arr (some 4) (.base c%"double"), .typedef _ _ (.arr (some 4) (.base c%"double")) _ (by rw [← isFund_iff]; decide) (by rfl)
        (.fund _ _ (by rw [← isFund_iff]; decide) (.arrs 0 [] _ [] _ (by simp) (.nil _))) (.nil _),
        .arr _ _ (by decide) (by simp) (.prim _ _ (by rfl)), by simp, by simp, fun n k h => hne n k _ (by simp) h⟩
  · rcases exTm _ _ h with ⟨_, rfl⟩ | ⟨_, rfl⟩ | ⟨_, rfl⟩ <;> (intro q hq hn; subst hn; revert hq; decide)
  · cases hd : dget exEnv.types (compWord u ++ ' ' :: tag) with
    | none => rfl
    | some p =>
      have := dget_some_mem hd
      cases u <;> simp [exEnv, ctypesTable, compWord] at this

/-- A type whose resolution contains no function has no parameters. -/
theorem finite_noFn {e : CtEnv} (hm : MapMatch e.tm) {t r : CType} (hq : QualsMatch t) (hev : evalType e.cfg e.tm t = .ok r)
    (hf : ∀ ps, .fn ps ∉ r.mods) : FiniteParams e t := by
  refine .mk t hq (fun b ps p hb hp _ => ?_)
  have := (C01_result _ _ t _ hm hq).2 ⟨b, hb, rfl⟩
  rw [hev] at this; cases this
  exact (hf ps hp).elim

theorem exFinite : ∀ m ∈ allMembers exEnv, FiniteParams exEnv m.type := by
  intro m hm
  have : m ∈ [(⟨some c%"grid", ctTy c%"int" [ctArr 1, ctArr 2], .none, none⟩ : Member),
      ⟨some c%"next", ctTy c%"struct node" [ctPtr], .none, none⟩, ⟨some c%"cb", ctTy c%"cb_t" [], .none, none⟩,
      ⟨some c%"v", ctTy c%"vec" [], .none, none⟩] := hm
  simp only [List.mem_cons, List.not_mem_nil, or_false] at this
  rcases this with rfl | rfl | rfl | rfl
  · exact finite_noFn ctExMap rfl (r := ctTy c%"int" [ctArr 1, ctArr 2]) rfl (by simp [ctTy, ctArr])
  · exact finite_noFn ctExMap rfl (r := ctTy c%"struct node" [ctPtr]) rfl (by simp [ctTy, ctPtr])
  · refine .mk _ rfl (fun b ps p hb hp hps => ?_)
    have h1 := (C01_result _ _ _ _ ctExMap (by rfl)).2 ⟨b, hb, rfl⟩
    have h2 : evalType exEnv.cfg exEnv.tm (ctTy c%"cb_t" []) = .ok (ctTy c%"int" [.fn [(none, ctTy c%"struct node" [ctPtr], none), (none, ctTy c%"char" [ctPtr], none)], ctPtr]) := by rfl
    have h3 := h1.symm.trans h2
    simp only [Except.ok.injEq, ctTy, TypeF.mk.injEq] at h3
    rw [h3.2.1] at hp
    simp [ctPtr] at hp
    subst hp
    simp only [List.mem_cons, List.not_mem_nil, or_false] at hps
    rcases hps with rfl | rfl
    · exact finite_noFn ctExMap rfl (r := ctTy c%"struct node" [ctPtr]) rfl (by simp [ctTy, ctPtr])
    · exact finite_noFn ctExMap rfl (r := ctTy c%"char" [ctPtr]) rfl (by simp [ctTy, ctPtr])
  · exact finite_noFn ctExMap rfl (r := ctTy c%"double" [ctArr 0]) rfl (by simp [ctTy, ctArr])

/-- All hypotheses of C47-C50 are met by this world. -/
theorem ctExample : ∃ N c st', (∀ n, N ≤ n → getType exEnv n exStart exVar = (.ok c, st')) ∧
    Mirrors exEnv.types st'.structs c (.arr (some 7) (.ptr (.base c%"struct node"))) :=
  C47_built_partial exWorld exBuild exFinite (.init _ (fun _ => rfl)) (.top 0) exVar
    ⟨tyGoodB_ok ctExMap rfl, by simp [exVar, ctTy, ctPtr, ctArr]⟩ (.inr ⟨0, by simp, rfl⟩)
    (finite_noFn ctExMap rfl (r := exVar) rfl (by simp [exVar, ctTy, ctPtr, ctArr]))
    _ (.fund _ _ (by rw [← isFund_iff]; decide) (.ptr _ _ _ (.arrs 3 [] _ [] _ (by simp) (.nil _))))
    (.arr _ _ (by decide) (by simp) (.ptr _ exNode))

/-- The class made for `struct node`. -/
example : (getType exEnv 5 exStart exVar).2.classes = [⟨false, c%"node", none, [],
    some [(c%"grid", .arr 2 (.arr 3 (.prim c%"c_int")), .none), (c%"next", .ptr (.comp 0), .none),
      (c%"cb", .fn false (.prim c%"c_int") [.ptr (.comp 0), .prim c%"c_char_p"], .none),
      (c%"v", .arr 4 (.prim c%"c_double"), .none)]⟩] := by rfl

end

/-! ### Counterexamples -/

/-- An interpreter that is not on Windows, with typedefs and structs. -/
def cxEnv (types structs : Dict Str DefVal) : CtEnv :=
  ⟨⟨false, false, []⟩, fun k => match k with | .types => types | .structs => structs | _ => [], ctypesTable⟩

/-- C47 fails: `int (**f)(int)` loses one pointer level, a variable of type pointer to function pointer
gets the class of a function pointer. -/
theorem C47_counterexample_pointer_to_function_pointer :
    ∃ c v, (getType (cxEnv [] []) 5 exStart (ctTy c%"int" [.fn [(none, ctTy c%"int" [], none)], ctPtr, ctPtr])).1 = .ok c ∧
      Means (cxEnv [] []).cfg [] exDim (ctTy c%"int" [.fn [(none, ctTy c%"int" [], none)], ctPtr, ctPtr]) v ∧
      ∀ S, ¬ Mirrors ctypesTable S c v := by
  refine ⟨.fn false (.prim c%"c_int") [.prim c%"c_int"], .ptr (.ptr (.fn [(none, .base c%"int")] (.base c%"int"))), by rfl, ?_, ?_⟩
  · refine .fund _ _ (by rw [← isFund_iff]; decide) (.fn _ _ _ _ _ (.cons _ _ _ _ _ _ (.fund _ _ (by rw [← isFund_iff]; decide) (.nil _)) .nil) ?_)
    exact .ptr _ _ _ (.ptr _ _ _ (.nil _))
  · intro S h; cases h

/-- C47 fails: with `typedef int A[3]; A x[2];` the dimensions of `x` are in the wrong order. -/
theorem C47_counterexample_typedef_array :
    ∃ e t c v, (getType e 5 exStart t).1 = .ok c ∧ Means e.cfg e.tm exDim t v ∧ ∀ S, ¬ Mirrors ctypesTable S c v := by
  refine ⟨cxEnv [(c%"A", .type (ctTy c%"int" [ctArr 2]))] [], ctTy c%"A" [ctArr 1],
    .arr 3 (.arr 2 (.prim c%"c_int")), .arr (some 2) (.arr (some 3) (.base c%"int")), by rfl, ?_, ?_⟩
  · exact .typedef _ _ (.arr (some 3) (.base c%"int")) _ (by rw [← isFund_iff]; decide) (by rfl)
      (.fund _ _ (by rw [← isFund_iff]; decide) (.arrs 2 [] _ [] _ (by simp) (.nil _))) (.arrs 1 [] _ [] _ (by simp) (.nil _))
  · intro S h
    generalize hx : (CTy.arr (some 2) (.arr (some 3) (.base c%"int"))) = x at h
    generalize hy : (Cls.arr 3 (.arr 2 (.prim c%"c_int"))) = y at h
    cases h <;> simp at hx hy
    omega

/-- C47 fails: there is no class for `void (*f)(void)`, ctypes rejects `None` as argument type. -/
theorem C47_counterexample_void_parameter :
    (getType (cxEnv [] []) 5 exStart (ctTy c%"void" [.fn [(none, ctTy c%"void" [], none)], ctPtr])).1 = .error .typeError := by rfl

/-- C47 fails: there is no class for a `__stdcall` function pointer unless on Windows (`WINFUNCTYPE` is not
defined). -/
theorem C47_counterexample_stdcall :
    (getType (cxEnv [] []) 5 exStart (ctTy c%"int" [.fn [], .sym c%"__stdcall", ctPtr])).1 = .error .nameError := by rfl

/-- C47 fails: `signed char *` is treated as `char *`, a NUL-terminated string. -/
theorem C47_counterexample_signed_char :
    (getType (cxEnv [] []) 5 exStart (ctTy c%"signed char" [ctPtr])).1 = .ok (.prim c%"c_char_p") := by rfl

/-- C48 fails: the class of `int a[2][3]` is right the first time and different the second time; the lists
of lengths in the parser's definitions change. -/
theorem C48_counterexample : ∃ t st1 st2 c1 c2,
    getType (cxEnv [] []) 5 exStart t = (.ok c1, st1) ∧ getType (cxEnv [] []) 5 st1 t = (.ok c2, st2) ∧ c1 ≠ c2 ∧
    c1 = .arr 2 (.arr 3 (.prim c%"c_int")) ∧ c2 = .arr 2 (.arr 3 (.arr 3 (.prim c%"c_int"))) ∧
    st1.heap 1 = [some 2, some 3] ∧ st2.heap 1 = [some 2, some 3, some 3] :=
  ⟨ctTy c%"int" [ctArr 1, ctArr 2], _, _, _, _, rfl, rfl, by simp, rfl, rfl, rfl, rfl⟩

/-- C48 fails: two libraries that share a parser, hence its definitions.  The class of a struct with a
member `int grid[2][3]` is right for the first and wrong for the second. -/
theorem C48_counterexample_second_library :
    (getType exEnv 5 ⟨(getType exEnv 5 exStart (ctTy c%"struct node" [])).2.heap, [], []⟩ (ctTy c%"struct node" [])).2.classes.map
      (fun c => (c.fields.getD []).map (·.2.1) |>.head?) = [some (.arr 2 (.arr 3 (.arr 3 (.prim c%"c_int"))))] := by rfl

/-- C49: `lib('structs', name)` and `lib('unions', name)` with a typedef name reach the struct or union that the
name stands for; a name that stands for something else, or for nothing, gives `KeyError`. -/
theorem C49_alias (e : CtEnv) (u : Bool) (name : Str) (hn : dhas (e.defs (compKind u)) name = false) :
    (∀ (t : CType) (u' : Bool) (tag : Str) (ms : List CMod) (q : List Qual), dhas e.tm name = true →
      evalType e.cfg e.tm ⟨name, [], [some []]⟩ = .ok t → t.spec = compWord u' ++ ' ' :: tag →
      dget e.tm t.spec = some ⟨compWord u', .sym tag :: ms, q⟩ → resolveAlias e u name = .ok tag) ∧
    (dhas e.tm name = false → resolveAlias e u name = .error .keyError) ∧
    (∀ t : CType, dhas e.tm name = true → evalType e.cfg e.tm ⟨name, [], [some []]⟩ = .ok t →
      (∀ u' tag, t.spec ≠ compWord u' ++ ' ' :: tag) → resolveAlias e u name = .error .keyError) := by
  refine ⟨fun t u' tag ms q ht he hs hd => ?_, fun ht => ?_, fun t ht he hs => ?_⟩
  · have hst : (startsWith t.spec c%"struct " || startsWith t.spec c%"union ") = true := by
      rw [hs]; cases u' <;> simp [compWord, startsWith]
    simp [resolveAlias, hn, ht, he, hst, resolveAlias.tagOf, hd]
  · simp [resolveAlias, hn, ht]
  · have hst : (startsWith t.spec c%"struct " || startsWith t.spec c%"union ") = false := by
      rw [Bool.or_eq_false_iff]
      constructor
      · cases h : startsWith t.spec c%"struct "
        · rfl
        · obtain ⟨r, hr⟩ := (startsWith_iff _ _).1 h
          exact absurd hr (hs false r)
      · cases h : startsWith t.spec c%"union "
        · rfl
        · obtain ⟨r, hr⟩ := (startsWith_iff _ _).1 h
          exact absurd hr (hs true r)
    simp [resolveAlias, hn, ht, he, hst]

/-- C49: an alias of a union. -/
example : resolveAlias (cxEnv [(c%"union U", .type (ctTy c%"union" [.sym c%"U"])), (c%"u_t", .type (ctTy c%"union U" []))] [])
    true c%"u_t" = .ok c%"U" := by rfl

/-- C49 fails: `lib('structs', alias)` with a typedef alias of a struct makes a second class each time, and
replaces the one registered for the tag. -/
theorem C49_counterexample : ∃ e st1 st2 c1 c2,
    getStruct e (getType e 5) exStart false c%"S" = (.ok c1, st1) ∧ getStruct e (getType e 5) st1 false c%"alias" = (.ok c2, st2) ∧ c1 ≠ c2 :=
  ⟨cxEnv [(c%"struct S", .type (ctTy c%"struct" [.sym c%"S"])), (c%"alias", .type (ctTy c%"struct S" []))]
      [(c%"S", .compound [⟨some c%"x", ctTy c%"int" [], .none, none⟩] none)],
    _, _, .comp 0, .comp 1, rfl, rfl, by simp⟩

/-- C50 fails: bit widths (`int a : 3`) do not reach the fields. -/
theorem C50_counterexample_bits :
    (getStruct (cxEnv [] [(c%"S", .compound [⟨some c%"a", ctTy c%"int" [], .none, some 3⟩] none)])
        (getType (cxEnv [] [(c%"S", .compound [⟨some c%"a", ctTy c%"int" [], .none, some 3⟩] none)]) 5) exStart false c%"S").2.classes.map
      (·.fields) = [some [(c%"a", .prim c%"c_int", .none)]] := by rfl

/-- C50 fails: the name generated for an anonymous member can be that of a member after it. -/
theorem C50_counterexample_anonymous :
    (nameMembers [] [] [⟨none, ctTy c%"struct X" [], .none, none⟩, ⟨some c%"anon_member0", ctTy c%"int" [], .none, none⟩]).1 =
      [c%"anon_member0", c%"anon_member0"] := by rfl

/-- C50 fails: an unnamed bit-field (`int : 3`) counts as an anonymous struct; ctypes raises. -/
theorem C50_counterexample_padding :
    (getStruct (cxEnv [] [(c%"S", .compound [⟨none, ctTy c%"int" [], .none, some 3⟩] none)])
        (getType (cxEnv [] [(c%"S", .compound [⟨none, ctTy c%"int" [], .none, some 3⟩] none)]) 5) exStart false c%"S").1 =
      .error .attributeError := by rfl

/-- C51 fails: for `char *` the object is a pointer to `char *`. -/
theorem C51_counterexample : ∃ c c', (getType (cxEnv [] []) 5 exStart (ctTy c%"char" [ctPtr])).1 = .ok c ∧
    (getPointer (cxEnv [] []) 5 exStart (ctTy c%"char" [ctPtr]) (ctTy c%"char" [ctPtr])).1 = .ok c' ∧ c ≠ c' :=
  ⟨.prim c%"c_char_p", .ptr (.prim c%"c_char_p"), rfl, rfl, by simp⟩

example : (getPointer exEnv 5 exStart (ctTy c%"struct node" [ctPtr, ctPtr]) (ctTy c%"struct node" [ctPtr, ctPtr])).1 =
    .ok (.ptr (.ptr (.comp 0))) := by rfl

end Pyclib
