import Verif.Proof.Ctypes
import Verif.Props.Decl
/-
The ctypes classes mirror the C types: the induction behind C47-C50.
-/
namespace Pyclib
open Spec

/-! ### Inversion of `MeansMods` -/

section
variable {cfg : Cfg} {tm : Dict Str CType} {dim : Int → Option Int}

theorem meansMods_ptr {b v : CTy} {ms : List CMod} (h : MeansMods cfg tm dim b (.sym c%"*" :: ms) v) :
    MeansMods cfg tm dim (.ptr b) ms v := by
  generalize he : CMod.sym c%"*" :: ms = l at h
  cases h with
  | nil => cases he
  | ptr _ _ _ h => cases he; exact h
  | ref => simp at he
  | conv c _ _ _ hc => simp at he; obtain ⟨h1, _⟩ := he; subst h1; simp at hc
  | arrs => simp at he
  | fn => simp at he

theorem meansMods_ref {b v : CTy} {ms : List CMod} (h : MeansMods cfg tm dim b (.sym c%"&" :: ms) v) :
    MeansMods cfg tm dim (.ref b) ms v := by
  generalize he : CMod.sym c%"&" :: ms = l at h
  cases h with
  | nil => cases he
  | ptr => simp at he
  | ref _ _ _ h => cases he; exact h
  | conv c _ _ _ hc => simp at he; obtain ⟨h1, _⟩ := he; subst h1; simp at hc
  | arrs => simp at he
  | fn => simp at he

theorem meansMods_conv {b v : CTy} {c : Str} {ms : List CMod} (hc : c = c%"__stdcall" ∨ c = c%"__cdecl")
    (h : MeansMods cfg tm dim b (.sym c :: ms) v) : MeansMods cfg tm dim b ms v := by
  generalize he : CMod.sym c :: ms = l at h
  cases h with
  | nil => cases he
  | ptr => simp at he; obtain ⟨h1, _⟩ := he; subst h1; simp at hc
  | ref => simp at he; obtain ⟨h1, _⟩ := he; subst h1; simp at hc
  | conv c _ _ _ hc h => cases he; exact h
  | arrs => simp at he
  | fn => simp at he

theorem meansMods_fn {b v : CTy} {ps : List Param} {ms : List CMod} (h : MeansMods cfg tm dim b (.fn ps :: ms) v) :
    ∃ cs, MeansParams cfg tm dim ps cs ∧ MeansMods cfg tm dim (.fn cs b) ms v := by
  generalize he : CMod.fn ps :: ms = l at h
  cases h with
  | nil => cases he
  | ptr => simp at he
  | ref => simp at he
  | conv => simp at he
  | arrs => simp at he
  | fn _ cs _ _ _ hp h => cases he; exact ⟨cs, hp, h⟩

theorem meansMods_run {b v : CTy} {i : Int} {is : List Int} {ms : List CMod} (hm : ∀ d, ms.head? ≠ some (.arr d))
    (h : MeansMods cfg tm dim b ((i :: is).map (fun i => .arr [some i]) ++ ms) v) :
    MeansMods cfg tm dim (arrsOf ((i :: is).map dim) b) ms v := by
  generalize he : (i :: is).map (fun i => CMod.arr [some i]) ++ ms = l at h
  cases h with
  | nil => simp at he
  | ptr => simp at he
  | ref => simp at he
  | conv => simp at he
  | arrs i' is' _ ms' _ hm' h =>
    have e : ∀ (a : Int) (l : List Int), (a :: l).map (fun i => CMod.arr [some i]) =
        (some a :: l.map some).map (fun n => CMod.arr [n]) := by
      intro a l; simp
    rw [e, e] at he
    obtain ⟨h1, h2, h3⟩ := noArr_map_append hm hm' he
    cases h1
    have h4 : is = is' := by
      have := congrArg (List.map (fun o : Option Int => o.getD 0)) h2
      simpa [Function.comp_def] using this
    subst h4; subst h3
    exact h
  | fn => simp at he

theorem meansMods_nil {b v : CTy} (h : MeansMods cfg tm dim b [] v) : v = b := by
  generalize he : ([] : List CMod) = l at h
  cases h with
  | nil => rfl
  | _ => simp at he

end

/-! ### Classes -/

section
variable {types : Dict Str Str}

theorem mirrors_void {S : Dict Str Nat} {v : CTy} (h : Mirrors types S .void v) : v = .base c%"void" := by
  cases h; rfl

theorem mirrors_mono {S S' : Dict Str Nat} (hs : ∀ tag id, dget S tag = some id → dget S' tag = some id) {c : Cls} {v : CTy}
    (h : Mirrors types S c v) : Mirrors types S' c v := by
  refine Mirrors.rec (motive_1 := fun c v _ => Mirrors types S' c v) (motive_2 := fun c v _ => MirrorsArgs types S' c v)
    ?_ ?_ ?_ ?_ ?_ ?_ ?_ ?_ ?_ ?_ ?_ ?_ ?_ ?_ ?_ h
  · exact .void
  · intro s p h; exact .prim s p h
  · intro tag; exact .enum tag
  · intro tag id h; exact .struct tag id (hs _ _ h)
  · intro tag id h; exact .union tag id (hs _ _ h)
  · intro s p h; exact .special s p h
  · intro c v _ ho ih; exact .ptr c v ih ho
  · intro c v _ hv ih; exact .ref c v ih hv
  · intro n c v hn _ ih; exact .arr n c v hn ih
  · intro c v _ hv ih; exact .incomplete c v ih hv
  · exact .refVoid
  · exact .incompleteVoid
  · intro std ret args v cs _ _ h1 h2; exact .fnptr std ret args v cs h1 h2
  · exact .nil
  · intro c n v cls cs _ _ h1 h2; exact .cons c n v cls cs h1 h2

theorem mirrors_mkPtr {S : Dict Str Nat} {c : Cls} {v : CTy} (h : Mirrors types S c v) (ho : Ordinary v) :
    Mirrors types S (mkPtr c) (.ptr v) := by
  cases c with
  | void =>
    have := mirrors_void h
    subst this
    exact absurd (ho.2 _ rfl) (by decide)
  | prim p => exact .ptr _ _ h ho
  | comp p => exact .ptr _ _ h ho
  | ptr p => exact .ptr _ _ h ho
  | arr n p => exact .ptr _ _ h ho
  | fn s r a => exact .ptr _ _ h ho

theorem mirrors_mkRef {S : Dict Str Nat} {c : Cls} {v : CTy} (h : Mirrors types S c v) :
    Mirrors types S (mkPtr c) (.ref v) := by
  cases c with
  | void =>
    have := mirrors_void h
    subst this
    exact .refVoid
  | prim p => exact .ref _ _ h (by simp)
  | comp p => exact .ref _ _ h (by simp)
  | ptr p => exact .ref _ _ h (by simp)
  | arr n p => exact .ref _ _ h (by simp)
  | fn s r a => exact .ref _ _ h (by simp)

theorem mirrors_applyDim {S : Dict Str Nat} {c c' : Cls} {d : Option Int} {v : CTy} (h : Mirrors types S c v)
    (ha : applyDim c d = .ok c') : Mirrors types S c' (.arr d v) := by
  unfold applyDim at ha
  split at ha
  · rename_i hd
    subst hd
    simp at ha; subst ha
    cases c with
    | void =>
      have := mirrors_void h
      subst this
      exact .incompleteVoid
    | prim p => exact .incomplete _ _ h (by simp)
    | comp p => exact .incomplete _ _ h (by simp)
    | ptr p => exact .incomplete _ _ h (by simp)
    | arr n p => exact .incomplete _ _ h (by simp)
    | fn s r a => exact .incomplete _ _ h (by simp)
  · cases d with
    | none => cases c <;> simp [mkArr] at ha
    | some n =>
      have : 0 ≤ n ∧ c' = .arr n c := by
        cases c <;> simp [mkArr] at ha <;> (split at ha <;> simp at ha) <;> exact ⟨by omega, ha.symm⟩
      rw [this.2]
      exact .arr n c v this.1 h

theorem applyDims_append (c : Cls) (a b : List (Option Int)) :
    applyDims c (a ++ b) = match applyDims c a with | .error e => .error e | .ok c => applyDims c b := by
  induction a generalizing c with
  | nil => rfl
  | cons d a ih =>
    simp only [List.cons_append, applyDims]
    cases applyDim c d with
    | error e => rfl
    | ok c => exact ih c

theorem mirrors_applyDims {S : Dict Str Nat} {c c' : Cls} {ds : List (Option Int)} {v : CTy} (h : Mirrors types S c v)
    (ha : applyDims c ds.reverse = .ok c') : Mirrors types S c' (arrsOf ds v) := by
  induction ds generalizing c' with
  | nil => simp [applyDims] at ha; subst ha; exact h
  | cons d ds ih =>
    rw [List.reverse_cons, applyDims_append] at ha
    cases hd : applyDims c ds.reverse with
    | error e => rw [hd] at ha; simp at ha
    | ok c1 =>
      rw [hd] at ha
      simp only [applyDims] at ha
      cases hd' : applyDim c1 d with
      | error e => rw [hd'] at ha; simp at ha
      | ok c2 =>
        rw [hd'] at ha
        simp at ha; subst ha
        exact mirrors_applyDim (ih hd) hd'

end

/-! ### States -/

theorem Spec.CtWorld.map {e : CtEnv} {own : Int → Owner} (hw : CtWorld e own) : MapMatch e.tm :=
  fun s pt h => (hw.typedefs s pt pt h (.refl _)).quals

/-- The fields `fs` mirror the members `ms` with the names `names`: same order, declared types, the third
element of the member. -/
def FieldsOk (e : CtEnv) (dim : Int → Option Int) (structs : Dict Str Nat) (ms : List (Str × Member))
    (fs : List (Str × Cls × PVal)) : Prop :=
  fs.length = ms.length ∧ ∀ (j : Nat) (n : Str) (m : Member), ms[j]? = some (n, m) → ∃ c, fs[j]? = some (n, c, m.val) ∧
    ∀ v, Means e.cfg e.tm dim m.type v → Mirrors e.types structs c v

/-- The classes created so far belong to definitions, and their fields mirror the members. -/
structure ClsOk (e : CtEnv) (dim : Int → Option Int) (st : CtState) : Prop where
  defn : ∀ (id : Nat) (c : CompCls), st.classes[id]? = some c → ∃ ms, dget (e.defs (compKind c.union)) c.name = some (.compound ms c.pack) ∧
    c.anon = (nameMembers [] [] ms).2 ∧
    ∀ fs, c.fields = some fs → FieldsOk e dim st.structs ((nameMembers [] [] ms).1.zip ms) fs
  tag : ∀ tag id, dget st.structs tag = some id → ∃ c : CompCls, st.classes[id]? = some c ∧ c.name = tag

/-- What holds between any two uses of the backend: lists that can be used again, and those of structs not
built yet, hold what was declared. -/
structure CtInv (e : CtEnv) (own : Int → Owner) (dim : Int → Option Int) (st : CtState) : Prop where
  shared : ∀ i, own i = .shared → st.heap i = [dim i]
  fresh : ∀ i u tag j, own i = .member u tag j → dget st.structs tag = none → st.heap i = [dim i]
  cls : ClsOk e dim st

/-- What using the backend for types of the owners `P` can change. -/
structure CtStep (own : Int → Owner) (P : Owner → Prop) (st st' : CtState) : Prop where
  grow : ∀ tag id, dget st.structs tag = some id → dget st'.structs tag = some id
  classes : ∀ (id : Nat) (c : CompCls), st.classes[id]? = some c → ∃ c' : CompCls, st'.classes[id]? = some c' ∧ c'.union = c.union ∧
    c'.name = c.name ∧ ∀ fs, c.fields = some fs → c' = c
  heap : ∀ i, (own i = .shared ∨ ¬ P (own i)) →
    (∀ u tag j, own i = .member u tag j → dget st.structs tag ≠ none ∨ dget st'.structs tag = none) →
    st'.heap i = st.heap i

section
variable {e : CtEnv} {own : Int → Owner} {dim : Int → Option Int}

theorem CtStep.refl (P : Owner → Prop) (st : CtState) : CtStep own P st st :=
  ⟨fun _ _ h => h, fun _ c h => ⟨c, h, rfl, rfl, fun _ _ => rfl⟩, fun _ _ _ => rfl⟩

theorem grow_none {S S' : Dict Str Nat} (hs : ∀ tag id, dget S tag = some id → dget S' tag = some id) {tag : Str}
    (h : dget S' tag = none) : dget S tag = none := by
  cases hd : dget S tag with
  | none => rfl
  | some id => rw [hs _ _ hd] at h; cases h

theorem grow_some {S S' : Dict Str Nat} (hs : ∀ tag id, dget S tag = some id → dget S' tag = some id) {tag : Str}
    (h : dget S tag ≠ none) : dget S' tag ≠ none := fun h' => h (grow_none hs h')

theorem CtStep.trans {P : Owner → Prop} {a b c : CtState} (h1 : CtStep own P a b) (h2 : CtStep own P b c) :
    CtStep own P a c := by
  refine ⟨fun tag id h => h2.grow _ _ (h1.grow _ _ h), fun id x h => ?_, fun i hi hm => ?_⟩
  · obtain ⟨y, hy, y1, y2, y3⟩ := h1.classes id x h
    obtain ⟨z, hz, z1, z2, z3⟩ := h2.classes id y hy
    refine ⟨z, hz, z1.trans y1, z2.trans y2, fun fs hf => ?_⟩
    have := y3 fs hf
    subst this
    exact z3 fs hf
  rw [h2.heap i hi, h1.heap i hi]
  · intro u tag j ho
    rcases hm u tag j ho with h | h
    · exact .inl h
    · exact .inr (grow_none h2.grow h)
  · intro u tag j ho
    rcases hm u tag j ho with h | h
    · exact .inl (grow_some h1.grow h)
    · exact .inr h

theorem CtStep.weaken {P Q : Owner → Prop} {a b : CtState} (h : CtStep own P a b) (hpq : ∀ o, o ≠ .shared → P o → Q o) :
    CtStep own Q a b := by
  refine ⟨h.grow, h.classes, fun i hi hm => h.heap i ?_ hm⟩
  by_cases hs : own i = .shared
  · exact .inl hs
  · rcases hi with hi | hi
    · exact .inl hi
    · exact .inr fun hp => hi (hpq _ hs hp)

theorem CtStep.inv {P : Owner → Prop} {a b : CtState} (h : CtStep own P a b) (hi : CtInv e own dim a) (hc : ClsOk e dim b)
    (ho : ∀ u tag j, P (.member u tag j) → dget a.structs tag ≠ none) : CtInv e own dim b := by
  refine ⟨fun i hs => ?_, fun i u tag j hm hn => ?_, hc⟩
  · rw [h.heap i (.inl hs) (fun u tag j hm => by rw [hs] at hm; cases hm), hi.shared i hs]
  · have hna := grow_none h.grow hn
    rw [h.heap i ?_ ?_, hi.fresh i u tag j hm hna]
    · right
      intro he
      rw [hm] at he
      exact ho u tag j he hna
    · intro u' tag' j' hm'
      rw [hm] at hm'
      cases hm'
      exact .inr hn

/-- What `rec` must do on types that are fine. -/
def RecOk (e : CtEnv) (own : Int → Owner) (dim : Int → Option Int)
    (rec : CtState → CType → Except PyErr Cls × CtState) : Prop :=
  ∀ o t st, TyOk e own o t → CtInv e own dim st → Clean dim st.heap t.mods →
    (∀ u tag j, o = .member u tag j → dget st.structs tag ≠ none) →
    CtStep own (· = o) st (rec st t).2 ∧ ClsOk e dim (rec st t).2 ∧
    ∀ c v, (rec st t).1 = .ok c → Means e.cfg e.tm dim t v → Mirrors e.types (rec st t).2.structs c v

theorem clean_shared {st : CtState} {t : CType} (hi : CtInv e own dim st) (ht : TyOk e own .shared t) :
    Clean dim st.heap t.mods := fun i h => hi.shared i (ht.1.owned i h)

theorem param_ok {o : Owner} {t : CType} {ps : List Param} {p : Param} (ht : TyOk e own o t) (hf : .fn ps ∈ t.mods)
    (hp : p ∈ ps) : TyOk e own .shared p.2.1 :=
  ⟨ht.2 ps p _ hf hp (.refl _), fun ps' p' u hf' hp' hu => ht.2 ps p u hf hp (.param _ _ ps' p' hf' hp' hu)⟩

theorem argClasses_ok {rec : CtState → CType → Except PyErr Cls × CtState} (hr : RecOk e own dim rec)
    (ps : List Param) : ∀ (st : CtState), (∀ p ∈ ps, TyOk e own .shared p.2.1) → CtInv e own dim st →
    CtStep own (· = .shared) st (argClasses rec st ps).2 ∧ ClsOk e dim (argClasses rec st ps).2 ∧
    ∀ cs vs, (argClasses rec st ps).1 = .ok cs → MeansParams e.cfg e.tm dim ps vs →
      MirrorsArgs e.types (argClasses rec st ps).2.structs cs vs := by
  induction ps with
  | nil =>
    intro st _ hi
    refine ⟨.refl _ _, hi.cls, fun cs vs h hm => ?_⟩
    simp [argClasses] at h; subst h
    cases hm
    exact .nil
  | cons p ps ih =>
    intro st hp hi
    have hp0 := hp p (by simp)
    obtain ⟨h1, h1c, h2⟩ := hr .shared p.2.1 st hp0 hi (clean_shared hi hp0) (by simp)
    simp only [argClasses]
    cases hc : rec st p.2.1 with
    | mk r st1 =>
      rw [hc] at h1 h1c h2
      cases r with
      | error x => exact ⟨h1, h1c, by simp⟩
      | ok c =>
        simp only
        have hi1 : CtInv e own dim st1 := h1.inv hi h1c (by simp)
        obtain ⟨h3, h3c, h4⟩ := ih st1 (fun q hq => hp q (by simp [hq])) hi1
        cases ha : argClasses rec st1 ps with
        | mk r2 st2 =>
          rw [ha] at h3 h3c h4
          cases r2 with
          | error x => exact ⟨h1.trans h3, h3c, by simp⟩
          | ok cs =>
            refine ⟨h1.trans h3, h3c, fun cs' vs h hm => ?_⟩
            simp at h; subst h
            cases hm with
            | cons n t d _ v vs' hv hvs =>
              exact .cons _ _ _ _ _ (mirrors_mono h3.grow (h2 c v rfl hv)) (h4 cs vs' rfl hvs)

theorem ptrTimes_one (c : Cls) : ptrTimes 1 c = mkPtr c := rfl

theorem findPtr_star {n : Nat} {p s : Bool} {ms : List CMod} :
    findPtr (n + 1) p s (.sym c%"*" :: ms) = findPtr n true s ms := by
  rw [findPtr, if_pos rfl]

theorem findPtr_conv {n : Nat} {p s : Bool} {c : Str} {ms : List CMod} (hc : c = c%"__stdcall" ∨ c = c%"__cdecl") :
    findPtr (n + 1) p s (.sym c :: ms) = findPtr n p (c == c%"__stdcall") ms := by
  rcases hc with rfl | rfl <;> rfl

/-- After the pointer, `findPtr` stops unless there is another `*` or a convention. -/
theorem findPtr_stop {n : Nat} {p s : Bool} {ms : List CMod} (h1 : ms.head? ≠ some (.sym c%"*"))
    (h2 : ∀ c, ms.head? = some (.sym c) → isConv c = false) : findPtr n p s ms = (p, s, ms) := by
  cases n with
  | zero => simp [findPtr]
  | succ n =>
    cases ms with
    | nil => simp [findPtr]
    | cons m ms =>
      cases m with
      | arr d => simp [findPtr]
      | fn ps => simp [findPtr]
      | sym x =>
        rw [findPtr, if_neg, if_neg]
        · rw [h2 x rfl]; simp
        · intro hx; subst hx; exact h1 rfl

theorem fnPtrs_head_conv {w : Bool} {ms : List CMod} (h : FnPtrs w ms) : ∀ c, ms.head? = some (.sym c) → isConv c = false := by
  intro c hc
  cases ms with
  | nil => cases hc
  | cons m ms =>
    simp at hc; subst hc
    rcases h.1 with rfl | rfl <;> rfl

/-- `findPtr` on the modifiers after a function. -/
theorem findPtr_fn {w : Bool} {ms : List CMod} {ps : List Param} (h : FnPtrs w (.fn ps :: ms)) :
    ∃ std rest, findPtr 2 false false ms = (true, std, rest) ∧ FnPtrs w rest ∧ rest.length < ms.length ∧
      (std = true → w = true) ∧
      ((∃ c, (c = c%"__stdcall" ∨ c = c%"__cdecl") ∧ ms = .sym c :: .sym c%"*" :: rest) ∨
        (ms = .sym c%"*" :: rest)) := by
  cases ms with
  | nil => exact h.elim
  | cons m ms =>
    cases m with
    | arr d => exact h.elim
    | fn d => exact h.elim
    | sym s =>
      rcases h with ⟨rfl, h2, h3⟩ | ⟨hc, h2, h3⟩
      · refine ⟨false, ms, ?_, h2, by simp, by simp, .inr rfl⟩
        rw [findPtr_star, findPtr_stop h3 (fnPtrs_head_conv h2)]
      · cases ms with
        | nil => cases h3
        | cons x ms =>
          simp at h3; subst h3
          have hc' : s = c%"__stdcall" ∨ s = c%"__cdecl" := hc.imp (·.1) id
          refine ⟨s == c%"__stdcall", ms, ?_, h2.2, by simp; omega, ?_, .inl ⟨s, hc', rfl⟩⟩
          · rw [findPtr_conv hc', findPtr_star]
            simp [findPtr]
          · intro hs
            rcases hc with hc | hc
            · exact hc.2
            · subst hc; cases hs

theorem merged_cons_sym {h : Int → List (Option Int)} {s : Str} {mm l : List CMod} (hm : Merged dim h mm (.sym s :: l)) :
    ∃ mm', mm = .sym s :: mm' ∧ Merged dim h mm' l := by
  generalize he : CMod.sym s :: l = x at hm
  cases hm with
  | nil => cases he
  | other m mm l' _ hr => cases he; exact ⟨mm, rfl, hr⟩
  | run => simp at he

theorem merged_length {h : Int → List (Option Int)} {mm l : List CMod} (hm : Merged dim h mm l) :
    mm.length ≤ l.length := by
  induction hm with
  | nil => simp
  | other => simp; omega
  | run i is mm l _ _ _ ih => simp; omega

theorem applyMods_ok {rec : CtState → CType → Except PyErr Cls × CtState} (hr : RecOk e own dim rec) (n : Nat) :
    ∀ (st : CtState) (c : Cls) (mm l : List CMod), Merged dim st.heap mm l → mm.length ≤ n → FnPtrs e.cfg.win32 l →
    (∀ ps p, .fn ps ∈ l → p ∈ ps → TyOk e own .shared p.2.1) → CtInv e own dim st →
    (∀ i ∈ idsOf l, ∀ u tag j, own i = .member u tag j → dget st.structs tag ≠ none) →
    CtStep own (· = .shared) st (applyMods e.cfg.win32 rec n st c mm).2 ∧ ClsOk e dim (applyMods e.cfg.win32 rec n st c mm).2 ∧
    ∀ c' b v, (applyMods e.cfg.win32 rec n st c mm).1 = .ok c' → Mirrors e.types st.structs c b → b.isFn = false →
      (∀ s, b = .base s → specialPtr s ≠ none → l.head? ≠ some (.sym c%"*")) →
      MeansMods e.cfg e.tm dim b l v → Mirrors e.types (applyMods e.cfg.win32 rec n st c mm).2.structs c' v := by
  induction n with
  | zero =>
    intro st c mm l hm hlen _ _ hi _
    have : mm = [] := by cases mm with
      | nil => rfl
      | cons => simp at hlen
    subst this
    cases hm with
    | nil =>
      refine ⟨.refl _ _, hi.cls, fun c' b v h hb _ _ hv => ?_⟩
      simp [applyMods] at h; subst h
      rw [meansMods_nil hv]; exact hb
  | succ n ih =>
    intro st c mm l hm hlen hf hp hi hid
    cases hm with
    | nil =>
      refine ⟨.refl _ _, hi.cls, fun c' b v h hb _ _ hv => ?_⟩
      simp [applyMods] at h; subst h
      rw [meansMods_nil hv]; exact hb
    | run i is mm l hhi hl hmr =>
      simp only [applyMods]
      have hf' : FnPtrs e.cfg.win32 l := by
        have : ∀ (js : List Int), FnPtrs e.cfg.win32 (js.map (fun i => .arr [some i]) ++ l) → FnPtrs e.cfg.win32 l := by
          intro js
          induction js with
          | nil => exact id
          | cons j js ih => exact fun h => ih h
        exact this (i :: is) hf
      cases hd : applyDims c (st.heap i).reverse with
      | error x => exact ⟨.refl _ _, hi.cls, by simp⟩
      | ok c1 =>
        simp only
        obtain ⟨h1, h1c, h2⟩ := ih st c1 mm l hmr (by simp at hlen; omega) hf'
          (fun ps p hps => hp ps p (List.mem_append_right _ hps)) hi
          (fun i hi => hid i (by rw [mem_idsOf] at hi ⊢; exact List.mem_append_right _ hi))
        refine ⟨h1, h1c, fun c' b v h hb hfn hsp hv => ?_⟩
        rw [hhi] at hd
        exact h2 c' (arrsOf ((i :: is).map dim) b) v h (mirrors_applyDims hb hd) rfl
          (fun s hs => by simp [arrsOf] at hs) (meansMods_run hl hv)
    | other m mm l hna hmr =>
      have hlen' : mm.length ≤ n := by simp at hlen; omega
      have hp' : ∀ ps p, .fn ps ∈ l → p ∈ ps → TyOk e own .shared p.2.1 :=
        fun ps p hps => hp ps p (List.mem_cons_of_mem _ hps)
      have hid' : ∀ i ∈ idsOf l, ∀ u tag j, own i = .member u tag j → dget st.structs tag ≠ none :=
        fun i hi => hid i (by rw [mem_idsOf] at hi ⊢; exact List.mem_cons_of_mem _ hi)
      cases m with
      | arr d => exact (hna d rfl).elim
      | sym s =>
        rcases hf.1 with rfl | rfl
        · simp only [applyMods, List.length_cons, List.length_nil, Nat.zero_add, ptrTimes_one]
          rw [if_pos (by simp)]
          obtain ⟨h1, h1c, h2⟩ := ih st (mkPtr c) mm l hmr hlen' hf.2 hp' hi hid'
          refine ⟨h1, h1c, fun c' b v h hb hfn hsp hv => ?_⟩
          refine h2 c' (.ptr b) v h (mirrors_mkPtr hb ⟨hfn, fun s hs => ?_⟩) rfl (by simp) (meansMods_ptr hv)
          cases hsp' : specialPtr s with
          | none => rfl
          | some p => exact (hsp s hs (by rw [hsp']; simp) rfl).elim
        · simp only [applyMods, List.length_cons, List.length_nil, Nat.zero_add, ptrTimes_one]
          rw [if_pos (by simp)]
          obtain ⟨h1, h1c, h2⟩ := ih st (mkPtr c) mm l hmr hlen' hf.2 hp' hi hid'
          refine ⟨h1, h1c, fun c' b v h hb hfn hsp hv => ?_⟩
          exact h2 c' (.ref b) v h (mirrors_mkRef hb) rfl (by simp) (meansMods_ref hv)
      | fn ps =>
        have hps : ∀ p ∈ ps, TyOk e own .shared p.2.1 := fun p hpp => hp ps p (by simp) hpp
        -- the modifiers after the function
        have hsplit : ∃ std mrest rest, findPtr 2 false false mm = (true, std, mrest) ∧ Merged dim st.heap mrest rest ∧
            FnPtrs e.cfg.win32 rest ∧ mrest.length ≤ n ∧ mm ≠ [] ∧
            (∀ ps, .fn ps ∈ rest → .fn ps ∈ l) ∧ (∀ i ∈ idsOf rest, i ∈ idsOf l) ∧
            (∀ b v, MeansMods e.cfg e.tm dim b l v → MeansMods e.cfg e.tm dim (.ptr b) rest v) := by
          obtain ⟨std, rest, _, h2, _, _, h4⟩ := findPtr_fn hf
          rcases h4 with ⟨cv, hcv, rfl⟩ | rfl
          · obtain ⟨m1, rfl, hm1⟩ := merged_cons_sym hmr
            obtain ⟨m2, rfl, hm2⟩ := merged_cons_sym hm1
            refine ⟨cv == c%"__stdcall", m2, rest, ?_, hm2, h2, ?_, by simp, ?_, ?_, ?_⟩
            · rw [findPtr_conv hcv, findPtr_star]; simp [findPtr]
            · simp at hlen'; omega
            · intro ps h; exact List.mem_cons_of_mem _ (List.mem_cons_of_mem _ h)
            · intro i h; rw [mem_idsOf] at h ⊢; exact List.mem_cons_of_mem _ (List.mem_cons_of_mem _ h)
            · intro b v h; exact meansMods_ptr (meansMods_conv hcv h)
          · obtain ⟨m1, rfl, hm1⟩ := merged_cons_sym hmr
            have hst : m1.head? ≠ some (.sym c%"*") ∧ ∀ c, m1.head? = some (.sym c) → isConv c = false := by
              have hh : ∀ s, m1.head? = some (.sym s) → rest.head? = some (.sym s) := by
                intro s hs
                cases hm1 with
                | nil => cases hs
                | other m mm l _ _ => simpa using hs
                | run => simp at hs
              have hfp : rest.head? ≠ some (.sym c%"*") := by
                rcases hf with ⟨_, _, h3⟩ | ⟨hc, _, _⟩
                · exact h3
                · simp at hc
              exact ⟨fun h => hfp (hh _ h), fun c h => fnPtrs_head_conv h2 c (hh c h)⟩
            refine ⟨false, m1, rest, ?_, hm1, h2, ?_, by simp, ?_, ?_, ?_⟩
            · rw [findPtr_star, findPtr_stop hst.1 hst.2]
            · simp at hlen'; omega
            · intro ps h; exact List.mem_cons_of_mem _ h
            · intro i h; rw [mem_idsOf] at h ⊢; exact List.mem_cons_of_mem _ h
            · intro b v h; exact meansMods_ptr h
        obtain ⟨std, mrest, rest, hfp, hmrest, hfr, hlr, hmne, hsub, hids, hmeans⟩ := hsplit
        have happ : applyMods e.cfg.win32 rec (n + 1) st c (.fn ps :: mm) =
            if std && !e.cfg.win32 then (.error .nameError, st)
            else match argClasses rec st ps with
              | (.error x, st) => (.error x, st)
              | (.ok args, st) =>
                match mkFn std c args with
                | .error x => (.error x, st)
                | .ok c => applyMods e.cfg.win32 rec n st c mrest := by
          cases mm with
          | nil => exact (hmne rfl).elim
          | cons m mm =>
            simp only [applyMods, hfp]
            rfl
        rw [happ]
        split
        · exact ⟨.refl _ _, hi.cls, by simp⟩
        · obtain ⟨a1, a1c, a2⟩ := argClasses_ok hr ps st hps hi
          cases ha : argClasses rec st ps with
          | mk r st1 =>
            rw [ha] at a1 a1c a2
            cases r with
            | error x => exact ⟨a1, a1c, by simp⟩
            | ok args =>
              simp only
              cases hk : mkFn std c args with
              | error x => exact ⟨a1, a1c, by simp⟩
              | ok c1 =>
                simp only
                have hi1 : CtInv e own dim st1 := a1.inv hi a1c (by simp)
                have hm1 : Merged dim st1.heap mrest rest := by
                  refine hmrest.heap fun i hir => a1.heap i ?_ ?_
                  · by_cases hs : own i = .shared
                    · exact .inl hs
                    · exact .inr hs
                  · intro u tag j ho
                    exact .inl (hid' i (hids i hir) u tag j ho)
                obtain ⟨h1, h1c, h2⟩ := ih st1 c1 mrest rest hm1 hlr hfr (fun ps p h => hp' ps p (hsub ps h)) hi1
                  (fun i hir u tag j ho => grow_some a1.grow (hid' i (hids i hir) u tag j ho))
                refine ⟨a1.trans h1, h1c, fun c' b v h hb hfn hsp hv => ?_⟩
                obtain ⟨cs, hcs, hv'⟩ := meansMods_fn hv
                have hc1 : c1 = .fn std c args := by
                  unfold mkFn at hk
                  split at hk
                  · cases hk
                  · simp at hk; exact hk.symm
                subst hc1
                exact h2 c' (.ptr (.fn cs b)) v h
                  (.fnptr std c args b cs (mirrors_mono a1.grow hb) (a2 args cs rfl hcs)) rfl (by simp) (hmeans _ _ hv')

/-! ### Structs and unions -/

theorem listSet_get {α : Type} (l : List α) (n m : Nat) (x : α) :
    (listSet l n x)[m]? = if n = m ∧ m < l.length then some x else l[m]? := by
  induction l generalizing n m with
  | nil => simp [listSet]
  | cons y l ih =>
    cases n with
    | zero =>
      cases m with
      | zero => simp [listSet]
      | succ m => simp [listSet]
    | succ n =>
      cases m with
      | zero => simp [listSet]
      | succ m =>
        simp only [listSet, List.getElem?_cons_succ, ih]
        simp

theorem fieldsOk_mono {S S' : Dict Str Nat} (hs : ∀ tag id, dget S tag = some id → dget S' tag = some id)
    {ms : List (Str × Member)} {fs : List (Str × Cls × PVal)} (h : FieldsOk e dim S ms fs) : FieldsOk e dim S' ms fs := by
  refine ⟨h.1, fun j n m hj => ?_⟩
  obtain ⟨c, hc, hv⟩ := h.2 j n m hj
  exact ⟨c, hc, fun v hm => mirrors_mono hs (hv v hm)⟩

/-- The members of a struct or union. -/
def OfTag (u : Bool) (tag : Str) (o : Owner) : Prop := ∃ j, o = .member u tag j

theorem memberClasses_ok {rec : CtState → CType → Except PyErr Cls × CtState} (hr : RecOk e own dim rec)
    (u : Bool) (tag : Str) (ms : List (Str × Member)) : ∀ (st : CtState) (k : Nat),
    (∀ j n m, ms[j]? = some (n, m) → TyOk e own (.member u tag (k + j)) m.type) → CtInv e own dim st →
    (∀ x ∈ ms, Clean dim st.heap x.2.type.mods) → dget st.structs tag ≠ none →
    CtStep own (OfTag u tag) st (memberClasses rec st ms).2 ∧ ClsOk e dim (memberClasses rec st ms).2 ∧
    ∀ fs, (memberClasses rec st ms).1 = .ok fs → FieldsOk e dim (memberClasses rec st ms).2.structs ms fs := by
  induction ms with
  | nil =>
    intro st k _ hi _ _
    refine ⟨.refl _ _, hi.cls, fun fs h => ?_⟩
    simp [memberClasses] at h; subst h
    exact ⟨rfl, by simp⟩
  | cons x ms ih =>
    obtain ⟨n, m⟩ := x
    intro st k ht hi hc hreg
    have ht0 : TyOk e own (.member u tag k) m.type := ht 0 n m rfl
    obtain ⟨h1, h1c, h2⟩ := hr _ m.type st ht0 hi (hc (n, m) (by simp)) (by
      intro u' tag' j' he; cases he; exact hreg)
    simp only [memberClasses]
    cases hrec : rec st m.type with
    | mk r st1 =>
      rw [hrec] at h1 h1c h2
      have h1w : CtStep own (OfTag u tag) st st1 := h1.weaken (fun o _ ho => ⟨k, ho⟩)
      cases r with
      | error x => exact ⟨h1w, h1c, by simp⟩
      | ok c =>
        simp only
        have hi1 : CtInv e own dim st1 := h1.inv hi h1c (by
          intro u' tag' j' he; cases he; exact hreg)
        have hreg1 := grow_some h1.grow hreg
        have hc1 : ∀ x ∈ ms, Clean dim st1.heap x.2.type.mods := by
          intro x hx i hix
          have hx' := hc x (by simp [hx]) i hix
          obtain ⟨j, hj⟩ := List.getElem?_of_mem hx
          have hown := (ht (j + 1) x.1 x.2 (by simpa using hj)).1.owned i hix
          rw [h1.heap i ?_ ?_, hx']
          · right; rw [hown]; simp
          · intro u' tag' j' he
            rw [hown] at he; cases he
            exact .inl hreg
        obtain ⟨h3, h3c, h4⟩ := ih st1 (k + 1) (fun j n' m' hj => by
          have := ht (j + 1) n' m' (by simpa using hj)
          have e : k + 1 + j = k + (j + 1) := by omega
          rw [e]; exact this) hi1 hc1 hreg1
        cases ha : memberClasses rec st1 ms with
        | mk r2 st2 =>
          rw [ha] at h3 h3c h4
          cases r2 with
          | error x => exact ⟨h1w.trans h3, h3c, by simp⟩
          | ok fs =>
            refine ⟨h1w.trans h3, h3c, fun fs' h => ?_⟩
            simp at h; subst h
            obtain ⟨hl, hf⟩ := h4 fs rfl
            refine ⟨by simp [hl], fun j n' m' hj => ?_⟩
            cases j with
            | zero =>
              simp at hj
              obtain ⟨rfl, rfl⟩ := hj
              exact ⟨c, rfl, fun v hm => mirrors_mono h3.grow (h2 c v rfl hm)⟩
            | succ j =>
              simpa using hf j n' m' (by simpa using hj)

theorem nameMembers_length (ms : List Member) : ∀ (names anon : List Str),
    (nameMembers names anon ms).1.length = names.length + ms.length := by
  induction ms with
  | nil => intro names anon; rfl
  | cons m ms ih =>
    intro names anon
    cases hm : m.name with
    | some n => simp only [nameMembers, hm]; rw [ih]; simp; omega
    | none => simp only [nameMembers, hm]; rw [ih]; simp; omega

theorem getStruct_ok {rec : CtState → CType → Except PyErr Cls × CtState} (hr : RecOk e own dim rec)
    (hw : CtWorld e own) (st : CtState) (u : Bool) (tag : Str) (hi : CtInv e own dim st)
    (hd : dhas (e.defs (compKind u)) tag = true) :
    CtStep own (· = .shared) st (getStruct e rec st u tag).2 ∧ ClsOk e dim (getStruct e rec st u tag).2 ∧
    ∀ c, (getStruct e rec st u tag).1 = .ok c → ∃ id, c = .comp id ∧ dget (getStruct e rec st u tag).2.structs tag = some id := by
  unfold getStruct
  cases hs : dget st.structs tag with
  | some id =>
    simp only
    refine ⟨.refl _ _, hi.cls, fun c hc => ?_⟩
    simp at hc
    exact ⟨id, hc.symm, hs⟩
  | none =>
    simp only [resolveAlias, hd, if_true]
    cases hdd : dget (e.defs (compKind u)) tag with
    | none => exact ⟨.refl _ _, hi.cls, by simp⟩
    | some d =>
      cases d with
      | compound ms pack =>
        simp only
        generalize hst1 : ({ st with structs := dset st.structs tag st.classes.length,
                                     classes := st.classes ++ [⟨u, tag, pack, (nameMembers [] [] ms).2, none⟩] } : CtState) = st1
        have s1 : st1.structs = dset st.structs tag st.classes.length := by rw [← hst1]
        have c1 : st1.classes = st.classes ++ [⟨u, tag, pack, (nameMembers [] [] ms).2, none⟩] := by rw [← hst1]
        have e1 : st1.heap = st.heap := by rw [← hst1]
        have hgrow : ∀ tg id, dget st.structs tg = some id → dget st1.structs tg = some id := by
          intro tg id h
          rw [s1, dget_dset]
          split
          · rename_i he; subst he; rw [hs] at h; cases h
          · exact h
        have step1 : CtStep own (· = .shared) st st1 := by
          refine ⟨hgrow, fun id c h => ?_, fun i _ _ => by rw [e1]⟩
          refine ⟨c, ?_, rfl, rfl, fun _ _ => rfl⟩
          rw [c1, List.getElem?_append_left]
          · exact h
          · exact (List.getElem?_eq_some_iff.1 h).1
        have hreg : dget st1.structs tag = some st.classes.length := by rw [s1]; simp
        have hcls1 : ClsOk e dim st1 := by
          refine ⟨fun id c h => ?_, fun tg id h => ?_⟩
          · rw [c1, List.getElem?_append] at h
            split at h
            · obtain ⟨ms', h1, h2, h3⟩ := hi.cls.defn id c h
              exact ⟨ms', h1, h2, fun fs hf => fieldsOk_mono hgrow (h3 fs hf)⟩
            · have : c = ⟨u, tag, pack, (nameMembers [] [] ms).2, none⟩ := by
                have := List.mem_of_getElem? h
                simpa using this
              subst this
              exact ⟨ms, hdd, rfl, by simp⟩
          · rw [s1, dget_dset] at h
            split at h
            · rename_i he; subst he
              simp at h; subst h
              exact ⟨_, by rw [c1]; simp; rfl, rfl⟩
            · obtain ⟨c, hc, hn⟩ := hi.cls.tag tg id h
              refine ⟨c, ?_, hn⟩
              rw [c1, List.getElem?_append_left]
              · exact hc
              · exact (List.getElem?_eq_some_iff.1 hc).1
        have hi1 : CtInv e own dim st1 := step1.inv hi hcls1 (by simp)
        have hms : ∀ (j : Nat) (n : Str) (m : Member), ((nameMembers [] [] ms).1.zip ms)[j]? = some (n, m) → ms[j]? = some m := by
          intro j n m hj
          rw [List.getElem?_zip_eq_some] at hj
          exact hj.2
        have hmem := hw.members u tag ms pack
        obtain ⟨h1, h1c, h2⟩ := memberClasses_ok hr u tag ((nameMembers [] [] ms).1.zip ms) st1 0
          (fun j n m hj => by
            have := hmem j m hdd (hms j n m hj)
            simpa using this) hi1
          (fun x hx i hix => by
            obtain ⟨j, hj⟩ := List.getElem?_of_mem hx
            have := hmem j x.2 hdd (hms j x.1 x.2 hj)
            rw [e1]
            exact hi.fresh i u tag j (this.1.owned i hix) hs)
          (by rw [hreg]; simp)
        have step2 : ∀ st2 : CtState, CtStep own (OfTag u tag) st1 st2 → CtStep own (· = .shared) st st2 := by
          intro st2 h
          have hg := fun tg id hh => h.grow tg id (hgrow tg id hh)
          refine ⟨hg, (CtStep.trans (step1.weaken (Q := OfTag u tag) (by intro o h1 h2; exact (h1 h2).elim)) h).classes, ?_⟩
          intro i _ hm
          rw [h.heap i ?_ ?_, e1]
          · by_cases hsh : own i = .shared
            · exact .inl hsh
            · right
              rintro ⟨j, hj⟩
              rcases hm u tag j hj with h' | h'
              · exact h' hs
              · rw [h.grow tag _ hreg] at h'; cases h'
          · intro u' tg j ho
            rcases hm u' tg j ho with h' | h'
            · exact .inl (grow_some hgrow h')
            · exact .inr h'
        cases hmc : memberClasses rec st1 ((nameMembers [] [] ms).1.zip ms) with
        | mk r st2 =>
          rw [hmc] at h1 h1c h2
          cases r with
          | error x => exact ⟨step2 _ h1, h1c, by simp⟩
          | ok fs =>
            simp only
            cases hck : checkFields (nameMembers [] [] ms).2 fs with
            | error x => exact ⟨step2 _ h1, h1c, by simp⟩
            | ok _ =>
              simp only
              obtain ⟨c2, hc2, hu2, hn2, _⟩ := h1.classes st.classes.length _ (by rw [c1]; simp; rfl)
              have hlt : st.classes.length < st2.classes.length := (List.getElem?_eq_some_iff.1 hc2).1
              have hget : ∀ id (c : CompCls), (listSet st2.classes st.classes.length
                  ⟨u, tag, pack, (nameMembers [] [] ms).2, some fs⟩)[id]? = some c →
                  (id = st.classes.length ∧ c = ⟨u, tag, pack, (nameMembers [] [] ms).2, some fs⟩) ∨ st2.classes[id]? = some c := by
                intro id c h
                rw [listSet_get] at h
                split at h
                · rename_i hh
                  left
                  simp at h
                  exact ⟨hh.1.symm, h.symm⟩
                · exact .inr h
              have stepS : CtStep own (· = .shared) st { st2 with classes := listSet st2.classes st.classes.length ⟨u, tag, pack, (nameMembers [] [] ms).2, some fs⟩ } := by
                have h' := step2 _ h1
                refine ⟨h'.grow, fun id c h => ?_, h'.heap⟩
                obtain ⟨c', hc', r1, r2, r3⟩ := h'.classes id c h
                refine ⟨c', ?_, r1, r2, r3⟩
                simp only
                rw [listSet_get, if_neg]
                · exact hc'
                · rintro ⟨he, _⟩
                  have := (List.getElem?_eq_some_iff.1 h).1
                  omega
              refine ⟨stepS, ?_, ?_⟩
              · refine ⟨fun id c h => ?_, fun tg id h => ?_⟩
                · rcases hget id c h with ⟨rfl, rfl⟩ | h
                  · exact ⟨ms, hdd, rfl, fun fs' hf => by simp at hf; subst hf; exact h2 fs rfl⟩
                  · exact h1c.defn id c h
                · obtain ⟨c, hc, hn⟩ := h1c.tag tg id h
                  by_cases he : id = st.classes.length
                  · subst he
                    rw [hc2] at hc; cases hc
                    refine ⟨⟨u, tag, pack, (nameMembers [] [] ms).2, some fs⟩, ?_, ?_⟩
                    · simp only; rw [listSet_get, if_pos ⟨rfl, hlt⟩]
                    · rw [← hn, hn2]
                  · refine ⟨c, ?_, hn⟩
                    simp only; rw [listSet_get, if_neg]
                    · exact hc
                    · exact fun h => he h.1.symm
              · intro c hc
                simp at hc
                exact ⟨_, hc.symm, h1.grow _ _ hreg⟩
      | _ => exact ⟨.refl _ _, hi.cls, by simp⟩

/-! ### Types -/

theorem ptrTypes_special (s : Str) : dget ptrTypes s = specialPtr s := by
  simp only [ptrTypes, dget, specialPtr]
  by_cases h1 : s = c%"char"
  · subst h1; rfl
  by_cases h2 : s = c%"wchar"
  · subst h2; rfl
  by_cases h3 : s = c%"wchar_t"
  · subst h3; rfl
  by_cases h4 : s = c%"void"
  · subst h4; rfl
  simp only [h1, h2, h3, h4, if_false, or_self]
  rw [if_neg (fun h => h1 h.symm), if_neg (fun h => h2 h.symm), if_neg (fun h => h3 h.symm), if_neg (fun h => h4 h.symm)]

/-- What `baseCls` finds: a dedicated pointer class, or the class of the base type. -/
def BaseOk (types : Dict Str Str) (structs : Dict Str Nat) (t : CType) (c : Cls) (mods : List CMod) : Prop :=
  (∃ p, specialPtr t.spec = some p ∧ c = .prim p ∧ t.mods = .sym c%"*" :: mods) ∨
  (mods = t.mods ∧ Mirrors types structs c (.base t.spec) ∧
    (specialPtr t.spec ≠ none → t.mods.head? ≠ some (.sym c%"*")))

theorem startsWith_split {s p : Str} (h : startsWith s p = true) : ∃ r, s = p ++ r := (startsWith_iff _ _).1 h

theorem tagOf_tag (hw : CtWorld e own) (u : Bool) (r tag : Str)
    (h : resolveAlias.tagOf e (compWord u ++ ' ' :: r) = .ok tag) :
    tag = r ∧ dhas (e.defs (compKind u)) r = true := by
  unfold resolveAlias.tagOf at h
  cases hd : dget e.tm (compWord u ++ ' ' :: r) with
  | none => rw [hd] at h; simp at h
  | some pt =>
    rw [hd] at h
    obtain ⟨h1, h2⟩ := hw.tags u r pt hd
    cases hm : pt.mods with
    | nil => rw [hm] at h1; cases h1
    | cons m ms =>
      rw [hm] at h1
      simp at h1; subst h1
      simp [hm] at h
      exact ⟨h.symm, h2⟩

theorem baseCls_ok {rec : CtState → CType → Except PyErr Cls × CtState} (hr : RecOk e own dim rec)
    (hw : CtWorld e own) (st : CtState) (t : CType) (hi : CtInv e own dim st) :
    CtStep own (· = .shared) st (baseCls e rec true st t).2 ∧ ClsOk e dim (baseCls e rec true st t).2 ∧
    ∀ c mods, (baseCls e rec true st t).1 = .ok (c, mods) →
      BaseOk e.types (baseCls e rec true st t).2.structs t c mods := by
  unfold baseCls
  simp only [if_true]
  generalize hsp : specialCls t = special
  have hspec : ∀ p ms, special = some (p, ms) → specialPtr t.spec = some p ∧ t.mods = .sym c%"*" :: ms := by
    intro p ms h
    rw [← hsp] at h
    unfold specialCls at h
    split at h
    · rename_i s ms' hm
      split at h
      · rename_i hs
        rw [ptrTypes_special] at h
        cases hp : specialPtr t.spec with
        | none => rw [hp] at h; cases h
        | some q =>
          rw [hp] at h
          simp at h
          obtain ⟨rfl, rfl⟩ := h
          exact ⟨rfl, by rw [hm, hs]⟩
      · cases h
    · cases h
  have hnone : special = none → specialPtr t.spec ≠ none → t.mods.head? ≠ some (.sym c%"*") := by
    intro h hne hh
    rw [← hsp] at h
    unfold specialCls at h
    cases hm : t.mods with
    | nil => rw [hm] at hh; cases hh
    | cons m ms =>
      rw [hm] at hh h
      simp at hh; subst hh
      simp only [if_true] at h
      rw [ptrTypes_special] at h
      cases hp : specialPtr t.spec with
      | none => exact hne hp
      | some q => rw [hp] at h; simp at h
  cases special with
  | some x =>
    obtain ⟨p, ms⟩ := x
    refine ⟨.refl _ _, hi.cls, fun c mods h => ?_⟩
    simp at h
    obtain ⟨rfl, rfl⟩ := h
    obtain ⟨h1, h2⟩ := hspec p ms rfl
    exact .inl ⟨p, h1, rfl, h2⟩
  | none =>
    simp only
    cases ht : dget e.types t.spec with
    | some p =>
      refine ⟨.refl _ _, hi.cls, fun c mods h => ?_⟩
      simp at h
      obtain ⟨rfl, rfl⟩ := h
      exact .inr ⟨rfl, .prim _ _ ht, hnone rfl⟩
    | none =>
      simp only
      by_cases hst : (startsWith t.spec c%"struct " || startsWith t.spec c%"union ") = true
      · rw [if_pos hst]
        have hcase : ∃ u r, t.spec = compWord u ++ ' ' :: r ∧ (!startsWith t.spec c%"struct ") = u := by
          by_cases h1 : startsWith t.spec c%"struct " = true
          · obtain ⟨r, hr⟩ := startsWith_split h1
            exact ⟨false, r, by rw [hr]; rfl, by rw [h1]; rfl⟩
          · simp only [h1, Bool.false_or] at hst
            obtain ⟨r, hr⟩ := startsWith_split hst
            exact ⟨true, r, by rw [hr]; rfl, by simp at h1; rw [h1]; rfl⟩
        obtain ⟨u, r, hsr, hu⟩ := hcase
        rw [hu]
        cases htag : resolveAlias.tagOf e t.spec with
        | error x => exact ⟨.refl _ _, hi.cls, by simp⟩
        | ok tag =>
          simp only
          rw [hsr] at htag
          obtain ⟨rfl, hdd⟩ := tagOf_tag hw u r tag htag
          obtain ⟨h1, h1c, h2⟩ := getStruct_ok hr hw st u tag hi hdd
          cases hg : getStruct e rec st u tag with
          | mk res st1 =>
            rw [hg] at h1 h1c h2
            cases res with
            | error x => exact ⟨h1, h1c, by simp⟩
            | ok c1 =>
              refine ⟨h1, h1c, fun c mods h => ?_⟩
              simp at h
              obtain ⟨rfl, rfl⟩ := h
              obtain ⟨id, rfl, hid⟩ := h2 c1 rfl
              refine .inr ⟨rfl, ?_, hnone rfl⟩
              rw [hsr]
              cases u with
              | false => exact .struct tag id hid
              | true => exact .union tag id hid
      · rw [if_neg hst]
        by_cases hen : startsWith t.spec c%"enum " = true
        · rw [if_pos hen]
          refine ⟨.refl _ _, hi.cls, fun c mods h => ?_⟩
          simp at h
          obtain ⟨rfl, rfl⟩ := h
          obtain ⟨r, hr⟩ := startsWith_split hen
          refine .inr ⟨rfl, ?_, hnone rfl⟩
          rw [hr]; exact .enum r
        · rw [if_neg hen]
          by_cases hv : t.spec = c%"void"
          · rw [if_pos hv]
            refine ⟨.refl _ _, hi.cls, fun c mods h => ?_⟩
            simp at h
            obtain ⟨rfl, rfl⟩ := h
            refine .inr ⟨rfl, ?_, hnone rfl⟩
            rw [hv]; exact .void
          · rw [if_neg hv]
            exact ⟨.refl _ _, hi.cls, by simp⟩

/-- Merging and applying the modifiers `pre ++ l`, where `pre` comes from typedefs and `l` belongs to `o`. -/
theorem finish_ok {rec : CtState → CType → Except PyErr Cls × CtState} (hr : RecOk e own dim rec)
    (o : Owner) (st : CtState) (c : Cls) (pre l : List CMod) (hi : CtInv e own dim st)
    (hrp : Refs pre) (hop : ∀ i ∈ idsOf pre, own i = .shared)
    (hrl : Refs l) (hol : ∀ i ∈ idsOf l, own i = o) (hnl : (idsOf l).Nodup) (hcl : Clean dim st.heap l)
    (hj : NoAdj (pre ++ l.take 1)) (hs : o = .shared → NoAdj (pre ++ l)) (hf : FnPtrs e.cfg.win32 (pre ++ l))
    (hp : ∀ ps p, .fn ps ∈ pre ++ l → p ∈ ps → TyOk e own .shared p.2.1)
    (hreg : ∀ u tag j, o = .member u tag j → dget st.structs tag ≠ none) :
    ∀ R, R = applyMods e.cfg.win32 rec (mergeMods st.heap (pre ++ l)).1.length
        { st with heap := (mergeMods st.heap (pre ++ l)).2 } c (mergeMods st.heap (pre ++ l)).1 →
    CtStep own (· = o) st R.2 ∧ ClsOk e dim R.2 ∧
    ∀ c' b v, R.1 = .ok c' → Mirrors e.types st.structs c b → b.isFn = false →
      (∀ s, b = .base s → specialPtr s ≠ none → (pre ++ l).head? ≠ some (.sym c%"*")) →
      MeansMods e.cfg e.tm dim b (pre ++ l) v → Mirrors e.types R.2.structs c' v := by
  intro R hR
  rw [mergeMods_prepend st.heap pre l hj] at hR
  simp only at hR
  obtain ⟨m1, m2, m3⟩ := mergeMods_spec dim l st.heap hrl hnl hcl
  generalize hh2 : (mergeMods st.heap l).2 = h2 at *
  generalize hmm : (mergeMods st.heap l).1 = mm at *
  have hshared : ∀ i, own i = .shared → h2 i = st.heap i := by
    intro i hio
    by_cases hil : i ∈ idsOf l
    · have ho : o = .shared := (hol i hil).symm.trans hio
      have : NoAdj l := by
        intro a b x y hl
        exact hs ho a b (pre ++ x) y (by rw [hl]; simp)
      rw [m3 this]
    · exact m2 i hil
  have step1 : CtStep own (· = o) st { st with heap := h2 } := by
    refine ⟨fun _ _ h => h, fun _ c h => ⟨c, h, rfl, rfl, fun _ _ => rfl⟩, fun i hio _ => ?_⟩
    rcases hio with hio | hio
    · exact hshared i hio
    · exact m2 i (fun hil => hio (hol i hil))
  have hcls1 : ClsOk e dim { st with heap := h2 } := ⟨hi.cls.defn, hi.cls.tag⟩
  have hi1 : CtInv e own dim { st with heap := h2 } := step1.inv hi hcls1 (fun u tag j h => hreg u tag j h.symm)
  have hcp : Clean dim h2 pre := by
    intro i hip
    rw [hshared i (hop i hip), hi.shared i (hop i hip)]
  have hm : Merged dim h2 (pre ++ mm) (pre ++ l) := merged_prepend pre hj hrp hcp m1
  obtain ⟨a1, a2, a3⟩ := applyMods_ok hr (pre ++ mm).length { st with heap := h2 } c (pre ++ mm) (pre ++ l) hm
    (Nat.le_refl _) hf hp hi1 (by
      intro i hil u tag j ho
      rw [idsOf_append, List.mem_append] at hil
      rcases hil with hil | hil
      · rw [hop i hil] at ho; cases ho
      · exact hreg u tag j ((hol i hil).symm.trans ho))
  rw [← hR] at a1 a2 a3
  exact ⟨step1.trans (a1.weaken (fun x h1 h2 => (h1 h2).elim)), a2, a3⟩

theorem getType_ok (hw : CtWorld e own) (n : Nat) : RecOk e own dim (getType e n) := by
  induction n with
  | zero =>
    intro o t st _ hi _ _
    exact ⟨.refl _ _, hi.cls, by simp [getType]⟩
  | succ n hr =>
    intro o t st ht hi hc hreg
    simp only [getType]
    cases hev : evalType e.cfg e.tm t with
    | error x => exact ⟨.refl _ _, hi.cls, by simp⟩
    | ok r =>
      simp only
      obtain ⟨b, hb, rfl⟩ := (C01_result _ _ t r hw.map ht.1.quals).1 hev
      obtain ⟨hfn, hsh, hpre⟩ := ht.1.res b hb
      obtain ⟨pre, hbm, hprem⟩ := resolves_pre hb
      have hj := hpre pre hbm
      have hps : ∀ ps p, .fn ps ∈ b.mods → p ∈ ps → TyOk e own .shared p.2.1 := by
        intro ps p hf hp
        rw [hbm, List.mem_append] at hf
        rcases hf with hf | hf
        · obtain ⟨s, pt, hd, hm⟩ := hprem _ hf
          exact ⟨hw.typedefs s pt _ hd (.param _ _ ps p hm hp (.refl _)), fun ps' p' u hf' hp' hu =>
            hw.typedefs s pt _ hd (.param _ _ ps p hm hp (.param _ _ ps' p' hf' hp' hu))⟩
        · exact param_ok ht hf hp
      have hrp : Refs pre := by
        intro d hd
        obtain ⟨s, pt, hd', hm⟩ := hprem _ hd
        exact (hw.typedefs s pt pt hd' (.refl _)).refs d hm
      have hop : ∀ i ∈ idsOf pre, own i = .shared := by
        intro i hip
        rw [mem_idsOf] at hip
        obtain ⟨s, pt, hd', hm⟩ := hprem _ hip
        exact (hw.typedefs s pt pt hd' (.refl _)).owned i (mem_idsOf.2 hm)
      obtain ⟨b1, b2, b3⟩ := baseCls_ok hr hw st ⟨dropSigned b.spec, b.mods, b.quals⟩ hi
      cases hbc : baseCls e (getType e n) true st ⟨dropSigned b.spec, b.mods, b.quals⟩ with
      | mk res st1 =>
        rw [hbc] at b1 b2 b3
        have b1w : CtStep own (· = o) st st1 := b1.weaken (fun x h1 h2 => (h1 h2).elim)
        cases res with
        | error x => exact ⟨b1w, b2, by simp⟩
        | ok cm =>
          obtain ⟨c, mods⟩ := cm
          simp only
          have hi1 : CtInv e own dim st1 := b1.inv hi b2 (by simp)
          have hreg1 : ∀ u tag j, o = .member u tag j → dget st1.structs tag ≠ none :=
            fun u tag j h => grow_some b1.grow (hreg u tag j h)
          have hc1 : Clean dim st1.heap t.mods := by
            intro i hit
            have hio := ht.1.owned i hit
            rw [b1.heap i ?_ ?_, hc i hit]
            · by_cases hsh : own i = .shared
              · exact .inl hsh
              · exact .inr hsh
            · intro u tag j ho
              exact .inl (hreg u tag j (hio.symm.trans ho))
          rcases b3 c mods rfl with ⟨p, hsp, rfl, hm⟩ | ⟨rfl, hmir, hnsp⟩
          · -- dedicated pointer class
            simp only at hm hsp
            have hsplit : ∃ pre' l', mods = pre' ++ l' ∧ (∃ x, pre = x ++ pre') ∧ (∃ x, t.mods = x ++ l') ∧
                NoAdj (pre' ++ l'.take 1) := by
              rw [hbm] at hm
              cases pre with
              | nil =>
                refine ⟨[], mods, rfl, ⟨[], rfl⟩, ⟨[.sym c%"*"], hm⟩, ?_⟩
                intro a b x y hl
                have := congrArg List.length hl
                simp at this
                have : (List.take 1 mods).length ≤ 1 := by simp; omega
                simp at this
                omega
              | cons m pre' =>
                simp at hm
                exact ⟨pre', t.mods, hm.2.symm, ⟨[m], rfl⟩, ⟨[], rfl⟩, noAdj_tail hj⟩
            obtain ⟨pre', l', rfl, ⟨x, hx⟩, ⟨y, hy⟩, hj'⟩ := hsplit
            have memp : ∀ m ∈ pre', m ∈ pre := fun m h => by rw [hx]; simp [h]
            have meml : ∀ m ∈ l', m ∈ t.mods := fun m h => by rw [hy]; simp [h]
            obtain ⟨f1, f2, f3⟩ := finish_ok hr o st1 (.prim p) pre' l' hi1
              (fun d hd => hrp d (memp _ hd)) (fun i hip => hop i (by rw [mem_idsOf] at hip ⊢; exact memp _ hip))
              (fun d hd => ht.1.refs d (meml _ hd)) (fun i hil => ht.1.owned i (by rw [mem_idsOf] at hil ⊢; exact meml _ hil))
              (by have := ht.1.nodup; rw [hy, idsOf_append] at this; exact (List.nodup_append.1 this).2.1)
              (fun i hil => hc1 i (by rw [mem_idsOf] at hil ⊢; exact meml _ hil))
              hj' (fun ho => by have := hsh ho; rw [hm] at this; exact noAdj_tail this)
              (by rw [hm] at hfn; exact hfn.2)
              (fun ps p' hf hp => hps ps p' (by rw [hm]; exact List.mem_cons_of_mem _ hf) hp) hreg1 _ rfl
            refine ⟨b1w.trans f1, f2, fun c' v hok hv => ?_⟩
            have hv' := means_resolves hb pre hbm hj v hv
            rw [hm] at hv'
            exact f3 c' (.ptr (.base (dropSigned b.spec))) v hok (.special _ _ hsp) rfl (by simp) (meansMods_ptr hv')
          · simp only at hmir hnsp
            obtain ⟨f1, f2, f3⟩ := finish_ok hr o st1 c pre t.mods hi1 hrp hop ht.1.refs ht.1.owned ht.1.nodup hc1 hj
              (fun ho => by rw [← hbm]; exact hsh ho) (by rw [← hbm]; exact hfn) (by rw [← hbm]; exact hps) hreg1 _ rfl
            rw [← hbm] at f1 f2 f3
            refine ⟨b1w.trans f1, f2, fun c' v hok hv => ?_⟩
            have hv' := means_resolves hb pre hbm hj v hv
            refine f3 c' (.base (dropSigned b.spec)) v hok hmir rfl (fun s hs => ?_) hv'
            cases hs
            exact hnsp

end

end Pyclib
