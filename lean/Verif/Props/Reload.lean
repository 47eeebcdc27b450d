import Verif.Props.FileCache
import Verif.Props.Session
/-! C78: a library over cached definitions. -/
namespace Pyclib
open Spec

section
variable {s s' : Store DefVal} (hd : ∀ k n, dget (s'.defs k) n = dget (s.defs k) n)
include hd

theorem same_has (k : Kind) (n : Str) : dhas (s'.defs k) n = dhas (s.defs k) n := by simp only [dhas, hd]

theorem same_typeName {cfg : Cfg} {junk : Str → Str} {x : Str} (h : TypeName cfg junk s x) : TypeName cfg junk s' x := by
  cases h with
  | fund ws hne h => exact .fund ws hne h
  | ident _ h => exact .ident _ h
  | comp u tag h => exact .comp u tag (by rw [same_has hd]; exact h)
  | enum tag h => exact .enum tag (by rw [same_has hd]; exact h)
  | failed r => exact .failed r

theorem same_typeWf {cfg : Cfg} {junk : Str → Str} {t : CType} (h : TypeWf (TypeName cfg junk s) t) : TypeWf (TypeName cfg junk s') t :=
  fun u hu => ⟨same_typeName hd (h u hu).name, (h u hu).quals, (h u hu).base, (h u hu).mods⟩

theorem same_comp {cfg : Cfg} {junk : Str → Str} {u : Bool} {tag : Str} {v : DefVal} (h : CompoundWf cfg junk s u tag v) :
    CompoundWf cfg junk s' u tag v := by
  obtain ⟨h1, ms, pack, rfl, h2⟩ := h
  refine ⟨(hd _ _).trans h1, ms, pack, rfl, fun m hm => ?_⟩
  rcases h2 m hm with ⟨n, e, hn, ht⟩ | h
  · exact .inl ⟨n, e, hn, same_typeWf hd ht⟩
  · exact .inr h

theorem same_wf {cfg : Cfg} {junk : Str → Str} (h : TablesWf cfg junk s) : TablesWf cfg junk s' := by
  intro k n v hv
  have h1 := h k n v ((hd k n).symm.trans hv)
  cases k with
  | types =>
    rcases h1 with ⟨hn, t, rfl, ht⟩ | ⟨u, tag, rfl, h⟩ | ⟨tag, rfl, h⟩
    · exact .inl ⟨hn, t, rfl, same_typeWf hd ht⟩
    · exact .inr (.inl ⟨u, tag, rfl, by rw [same_has hd]; exact h⟩)
    · exact .inr (.inr ⟨tag, rfl, by rw [same_has hd]; exact h⟩)
  | structs => exact same_comp hd h1
  | unions => exact same_comp hd h1
  | enums =>
    obtain ⟨h1, d, rfl, h2⟩ := h1
    exact ⟨(hd _ _).trans h1, d, rfl, fun n i hi => ⟨(h2 n i hi).1, by rw [same_has hd]; exact (h2 n i hi).2⟩⟩
  | «variables» =>
    obtain ⟨h1, h2, val, t, rfl, h3, h4⟩ := h1
    exact ⟨h1, by rw [same_has hd]; exact h2, val, t, rfl, same_typeWf hd h3, h4⟩
  | functions =>
    obtain ⟨h1, r, ps, qs, rfl, h2, h3, h4⟩ := h1
    exact ⟨h1, r, ps, qs, rfl, same_typeWf hd h2, fun p hp => same_typeWf hd (h3 p hp), h4⟩
  | values => exact h1
  | macros => exact h1
  | fnmacros => exact h1

end

/-- Two well-formed sets of tables with the same entries. -/
structure SameTables (cfg : Cfg) (junk : Str → Str) (s s' : Store DefVal) : Prop where
  wf : TablesWf cfg junk s
  wf' : TablesWf cfg junk s'
  same : ∀ k n, dget (s'.defs k) n = dget (s.defs k) n

section
variable {cfg : Cfg} {junk : Str → Str} {types : Dict Str Str} {s s' : Store DefVal}

theorem SameTables.symm (h : SameTables cfg junk s s') : SameTables cfg junk s' s := ⟨h.wf', h.wf, fun k n => (h.same k n).symm⟩

theorem SameTables.tm (h : SameTables cfg junk s s') (n : Str) :
    dget (typeTable (s'.defs .types)) n = dget (typeTable (s.defs .types)) n := by
  apply Option.ext
  intro t
  rw [typeTable_wf h.wf, typeTable_wf h.wf', h.same]

theorem resolves_same {tm tm' : Dict Str CType} (h : ∀ n, dget tm' n = dget tm n) {t r : CType} (hr : Resolves cfg tm t r) :
    Resolves cfg tm' t r := by
  induction hr with
  | base hf => exact .base hf
  | step hf h1 hs _ ih => exact .step hf ((h _).trans h1) hs ih

theorem SameTables.resolves (h : SameTables cfg junk s s') {t r : CType} (hr : Resolves cfg (typeTable (s.defs .types)) t r) :
    Resolves cfg (typeTable (s'.defs .types)) t r := resolves_same h.tm hr

theorem SameTables.shapes (h : SameTables cfg junk s s') {b : Bool} {t : CType} (ht : ShapesOk cfg s b t) : ShapesOk cfg s' b t :=
  ⟨fun r hr => ht.1 r (h.symm.resolves hr), fun ps p u hps hp hu r hr => ht.2 ps p u hps hp hu r (h.symm.resolves hr)⟩

theorem SameTables.finite (h : SameTables cfg junk s s') {t : CType} (ht : FiniteParams ⟨cfg, s.defs, types⟩ t) :
    FiniteParams ⟨cfg, s'.defs, types⟩ t := by
  induction ht with
  | mk t hq _ ih => exact .mk t hq (fun r ps p hr hps hp => ih r ps p (h.symm.resolves hr) hps hp)

theorem SameTables.typedef (h : SameTables cfg junk s s') : TypedefOf s' = TypedefOf s := by
  funext n u
  simp only [TypedefOf, h.same]

theorem SameTables.means (h : SameTables cfg junk s s') : CMeaning cfg s' = CMeaning cfg s := by
  funext t v
  simp only [CMeaning, h.typedef]

theorem SameTables.tags (h : SameTables cfg junk s s') : DefinedTag s' = DefinedTag s := by
  funext u tag
  simp only [DefinedTag, same_has h.same]

theorem SameTables.ask (h : SameTables cfg junk s s') {t : CType} {v : CTy} (ht : AskOk cfg types s t v) : AskOk cfg types s' t v :=
  ⟨h.shapes ht.shapes, h.finite ht.finite, by rw [h.means]; exact ht.means, by rw [h.tags]; exact ht.build⟩

theorem SameTables.params (h : SameTables cfg junk s s') {ps : List Param} {cs : List (Option Str × CTy)}
    (hp : ParamsOk cfg types s ps cs) : ParamsOk cfg types s' ps cs := by
  induction hp with
  | nil => exact .nil
  | void p ps cs hp _ ih => exact .void p ps cs hp ih
  | cons p ps v cs hp ha hv _ ih => exact .cons p ps v cs hp (h.ask ha) hv ih

theorem SameTables.lib (h : SameTables cfg junk s s') (hl : LibOk cfg types s) : LibOk cfg types s' where
  words := hl.words
  simple := hl.simple
  typedefs := fun n t hn ht => by
    obtain ⟨h1, h2⟩ := hl.typedefs n t hn (by rw [← h.same]; exact ht)
    exact ⟨h.shapes h1, h2⟩
  members := fun u tag ms pack m hc hm => by
    obtain ⟨h1, h2, h3⟩ := hl.members u tag ms pack m (by rw [← h.same]; exact hc) hm
    rw [h.means, h.tags]
    exact ⟨h.shapes h1, h.finite h2, h3⟩

theorem SameTables.usable (h : SameTables cfg junk s s') {k : Kind} {n : Str} (hu : Usable cfg types s k n) : Usable cfg types s' k n := by
  cases k with
  | functions =>
    intro r ps q hf
    obtain ⟨h1, ⟨u, h2⟩, cs, h3⟩ := hu r ps q (by rw [← h.same]; exact hf)
    exact ⟨h1, ⟨u, h.ask h2⟩, cs, h.params h3⟩
  | types =>
    intro t hn ht
    obtain ⟨v, hv⟩ := hu t hn (by rw [← h.same]; exact ht)
    exact ⟨v, h.ask hv⟩
  | _ => trivial

theorem SameTables.gives (h : SameTables cfg junk s s') {exports : Str → Bool} {structs : Dict Str Nat} {k : Kind} {n : Str}
    {r : Except PyErr (LObj CtObj)} (hg : Gives cfg types s exports structs k n r) : Gives cfg types s' exports structs k n r := by
  cases hg with
  | kind _ _ hk => exact .kind _ _ hk
  | absent _ _ hk h1 => exact .absent _ _ hk (by rw [same_has h.same]; exact h1)
  | value _ v h1 => exact .value _ v (by rw [h.same]; exact h1)
  | enum _ d h1 => exact .enum _ d (by rw [h.same]; exact h1)
  | hidden _ h1 hx => exact .hidden _ (by rw [same_has h.same]; exact h1) hx
  | func _ r ps q u cs g h1 hx hr hps hn hmr hma =>
    exact .func _ r ps q u cs g (by rw [h.same]; exact h1) hx (by rw [h.means]; exact hr) (h.params hps) hn hmr hma
  | typedef _ t v c hi h1 hv hm => exact .typedef _ t v c hi (by rw [h.same]; exact h1) (by rw [h.means]; exact hv) hm
  | tagName _ hi h1 => exact .tagName _ hi (by rw [same_has h.same]; exact h1)
  | comp u _ id h1 hid => exact .comp u _ id (by rw [h.tags]; exact h1) hid

theorem SameTables.givesAttr (h : SameTables cfg junk s s') {exports : Str → Bool} {structs : Dict Str Nat} {ks : List Kind} {n : Str}
    {r : Except PyErr (LObj CtObj)} (hg : GivesAttr cfg types s exports structs n ks r) :
    GivesAttr cfg types s' exports structs n ks r := by
  induction hg with
  | nil => exact .nil
  | skip k ks res h1 _ ih => exact .skip k ks res (by rw [same_has h.same]; exact h1) ih
  | none k ks o res h1 hg ho _ ih => exact .none k ks o res (by rw [same_has h.same]; exact h1) (h.gives hg) ho ih
  | take k ks res h1 hg ho => exact .take k ks res (by rw [same_has h.same]; exact h1) (h.gives hg) ho

theorem SameTables.declared (h : SameTables cfg junk s s') {f : Str} {ps : List Param} {cs : List (Option Str × CTy)}
    (hf : Declared cfg types s f ps cs) : Declared cfg types s' f ps cs := by
  obtain ⟨⟨r, q, h1⟩, h2⟩ := hf
  exact ⟨⟨r, q, by rw [h.same]; exact h1⟩, h.params h2⟩

theorem SameTables.fairFn (h : SameTables cfg junk s s') {f : Str} {ps : List Param} {cs : List (Option Str × CTy)}
    (hf : FairFn cfg types s f ps cs) : FairFn cfg types s' f ps cs :=
  ⟨h.declared hf.decl, fun k hk => h.usable (hf.usable k hk), by rw [same_has h.same]; exact hf.values, hf.plain, hf.names⟩

theorem SameTables.fair {A : Type} (h : SameTables cfg junk s s') {u : Use A} (hu : FairUse cfg types s u) : FairUse cfg types s' u := by
  cases hu with
  | look q hq =>
    refine .look q ?_
    cases q with
    | call k n => exact ⟨h.usable hq.1, by rw [same_has h.same, same_has h.same]; exact hq.2⟩
    | attr n => exact fun k hk => h.usable (hq k hk)
  | invoke f ps cs args kws hf few keys known again =>
    exact .invoke f ps cs args kws (h.fairFn hf) few keys known (fun p hp => (again p hp).imp (fun ha => ⟨ha.1, h.shapes ha.2⟩) id)
  | argType f ps cs k hf hk again =>
    exact .argType f ps cs k (h.fairFn hf) hk (fun p hp => ⟨(again p hp).1, h.shapes (again p hp).2⟩)

theorem SameTables.right {A : Type} (h : SameTables cfg junk s s') {exports : Str → Bool} {structs : Dict Str Nat} {u : Use A} {r : Seen A}
    (hu : UseRight cfg types s exports structs u r) : UseRight cfg types s' exports structs u r := by
  cases hu with
  | look q r hq =>
    refine .look q r ?_
    cases q with
    | call k n => exact h.gives hq
    | attr n => exact h.givesAttr hq
  | hidden f args kws hx => exact .hidden f args kws hx
  | invoke f ps cs args kws o hx hd hc => exact .invoke f ps cs args kws o hx (h.declared hd) hc
  | hiddenType f k hx => exact .hiddenType f k hx
  | argType f ps cs k r hx hd hc => exact .argType f ps cs k r hx (h.declared hd) hc

/-- The conditions and the right outcomes of C74 depend on the entries of the tables only, not on their order. -/
theorem same_session {A : Type} (h : SameTables cfg junk s s') (hl : LibOk cfg types s) (hT : PtrTable types) (exports : Str → Bool) :
    ∃ N, ∀ n, N ≤ n → ∀ us : List (Use A), (∀ u ∈ us, FairUse cfg types s u) →
      (useAll (hdrEnv cfg types s') n (hdrLib cfg types s' n exports false) (hdrStart s') us).1.length = us.length ∧
      ∀ (i : Nat) u r, us[i]? = some u →
        (useAll (hdrEnv cfg types s') n (hdrLib cfg types s' n exports false) (hdrStart s') us).1[i]? = some r →
        UseRight cfg types s exports (useAll (hdrEnv cfg types s') n (hdrLib cfg types s' n exports false) (hdrStart s') us).2.b.structs u r := by
  obtain ⟨N, hN⟩ := C74_session_partial (A := A) h.wf' (h.lib hl) hT exports
  refine ⟨N, fun n hn us hu => ?_⟩
  obtain ⟨h1, h2⟩ := hN n hn us (fun u hm => h.fair (hu u hm))
  exact ⟨h1, fun i u r hi hr => h.symm.right (h2 i u r hi hr)⟩

end

/-- Macros given to the constructor keep the tables well-formed. -/
theorem wf_kwargs {cfg : Cfg} {junk : Str → Str} : ∀ (kw : List (Kind × Str × DefVal)) (s : Store DefVal),
    TablesWf cfg junk s → (∀ x ∈ kw, ∃ n t, x = (.macros, n, .macro t)) → TablesWf cfg junk (addKwargs s kw)
  | [], _, h, _ => h
  | x :: kw, s, h, hk => by
    obtain ⟨n, t, rfl⟩ := hk x (by simp)
    exact wf_kwargs kw (addDef s .macros n (.macro t)) (C69_macros cfg junk s h n t) (fun y hy => hk y (by simp [hy]))

/-- C78 (partial: headers within `CacheSafe`, see C68; uses within `FairUse`, see C74): header files are processed and a cache is
written; a second parser with the same arguments parses nothing and loads the cache; a library is opened over it.  Then
for any sequence of lookups, calls and questions every outcome is right for what the *headers* declare. -/
theorem C78_second_run_partial {A O : Type} [DecidableEq O] (w : Setup) (he : ExtraWords w.cfg) (content : Str → Str)
    (modPath : Str → Str) (disk : FS DefVal O) (kw : List (Kind × Str × DefVal)) (hkw : ∀ x ∈ kw, ∃ n t, x = (.macros, n, .macro t))
    (files : List Str) (opts : O) (c : Str) (check check' : Bool) (now now' : Nat) (r : ProcResult DefVal O)
    (hnone : loadCache modPath disk ⟨initStore kw, files, opts⟩ c check = (⟨initStore kw, files, opts⟩, false))
    (h : processAll modPath (fileWork w content) disk ⟨initStore kw, files, opts⟩ (some c) check now = .ok r)
    (hsafe : CacheSafe kw (files.map fun f => (f, content f)))
    (hnew : ∀ f ∈ files, ∀ src, r.fs f = some src → src.mtime ≤ now)
    (types : Dict Str Str) (hT : PtrTable types) (exports : Str → Bool) :
    ∃ s r', processFiles w (initStore kw) (files.map fun f => (f, content f)) = .ok s ∧
      processAll modPath (fileWork w content) r.fs ⟨initStore kw, files, opts⟩ (some c) check' now' = .ok r' ∧ r'.parsed = none ∧
      (LibOk w.cfg types s → ∃ N, ∀ n, N ≤ n → ∀ us : List (Use A), (∀ u ∈ us, FairUse w.cfg types s u) →
        let s' := r'.parser.store
        let ran := useAll (hdrEnv w.cfg types s') n (hdrLib w.cfg types s' n exports false) (hdrStart s') us
        ran.1.length = us.length ∧
        ∀ (i : Nat) u o, us[i]? = some u → ran.1[i]? = some o → UseRight w.cfg types s exports ran.2.b.structs u o) := by
  obtain ⟨r', h1, h2, h3⟩ := C68_second_run_partial w content modPath disk kw files opts c check check' now now' r hnone h hsafe hnew
  have hf : processFiles w (initStore kw) (files.map fun f => (f, content f)) = .ok r.parser.store := by
    unfold processAll at h
    simp only [hnone, Bool.false_eq_true, if_false] at h
    split at h
    · cases h
    · rename_i p' t e
      cases h
      exact parseAll_files e
  have hw : TablesWf w.cfg w.junk r.parser.store :=
    C69_files w he _ _ _ (wf_kwargs kw Store.empty (C69_empty _ _) hkw) hf
  exact ⟨r.parser.store, r', hf, h1, h2, fun hl => same_session ⟨hw, same_wf h3 hw, h3⟩ hl hT exports⟩

/-- C78 (partial: as above), for the definitions alone: reload what processing the files recorded. -/
theorem C78_reload_partial {A : Type} (w : Setup) (he : ExtraWords w.cfg) (kw : List (Kind × Str × DefVal))
    (hkw : ∀ x ∈ kw, ∃ n t, x = (.macros, n, .macro t)) (fs : List (Str × Str)) (s : Store DefVal)
    (hsafe : CacheSafe kw fs) (h : processFiles w (initStore kw) fs = .ok s) (types : Dict Str Str) (hl : LibOk w.cfg types s)
    (hT : PtrTable types) (exports : Str → Bool) :
    ∃ N, ∀ n, N ≤ n → ∀ us : List (Use A), (∀ u ∈ us, FairUse w.cfg types s u) →
      let s' := reload kw s
      let ran := useAll (hdrEnv w.cfg types s') n (hdrLib w.cfg types s' n exports false) (hdrStart s') us
      ran.1.length = us.length ∧
      ∀ (i : Nat) u o, us[i]? = some u → ran.1[i]? = some o → UseRight w.cfg types s exports ran.2.b.structs u o := by
  have hw : TablesWf w.cfg w.junk s := C69_files w he _ _ _ (wf_kwargs kw Store.empty (C69_empty _ _) hkw) h
  have hd := C68_reload_partial hsafe h
  exact same_session ⟨hw, same_wf hd hw, hd⟩ hl hT exports

/-! ### Example -/

theorem clSafe : CacheSafe [] [(c%"t.h", clText)] := by
  have e : ∀ l ∈ fileLines clText, (match l with | .undef _ => true | _ => false) = false := by decide +kernel
  refine ⟨by decide, fun p hp n hn => ?_⟩
  simp only [List.mem_singleton] at hp
  subst hp
  have := e _ hn
  cases this

/-- A value looked up in a library over the definitions, and in one over their cache. -/
def lookReload (fs : List (Str × Str)) (x : Str) : Option (Option Int × Option Int) :=
  match processFiles exSetup Store.empty fs with
  | .error _ => none
  | .ok s => some (see s, see (reload [] s))
where
  /-- The integer that `lib.x` gives. -/
  see (s : Store DefVal) : Option Int :=
    match ((hdrLib exSetup.cfg ctypesTable s 9 (fun _ => true) false).look (hdrStart s) (.attr x)).1 with
    | .ok (.val (.int i)) => some i
    | _ => none

/-- The value of a macro is the same in both. -/
theorem C78_example_value : lookReload cacheFiles c%"A" = some (some 4, some 4) := by decide +kernel

/-- C78 fails for header files with equal base names: the library over the cache shows another value. -/
theorem C78_counterexample_basename :
    lookReload [(c%"p/a.h", c%"#define X 1"), (c%"b.h", c%"#define X 2"), (c%"q/a.h", c%"#define X 3")] c%"X" = some (some 3, some 2) := by
  decide +kernel

attribute [local irreducible] clStore

theorem clVec : CMeaning exSetup.cfg clStore (ctTy c%"double" [clArr 3]) (.arr (some 3) (.base c%"double")) :=
  ⟨_, 0, .arrs _ [] _ [] _ (by simp) (.nil _), .arr _ _ _ _ (clFund (by rfl) rfl)⟩

theorem clVecName : IsName exSetup.cfg c%"vec" := by
  have hs : TablesWf exSetup.cfg exSetup.junk clStore := C69_files exSetup (by simp [ExtraWords, exSetup]) _ _ _ (C69_empty _ _) clFiles
  rcases hs .types c%"vec" _ (by rw [clTypes]; rfl) with ⟨h, _⟩ | ⟨u, tag, h, _⟩ | ⟨tag, h, _⟩
  · exact h
  · cases u <;> simp [compWord] at h
  · simp at h

/-- C78 on a header text: after any (fair) use of a library over the cached definitions, the typedef `vec` still is an array of
three `double`. -/
theorem C78_example : processFiles exSetup (initStore []) [(c%"t.h", clText)] = .ok clStore ∧
    ∃ N, ∀ n, N ≤ n → ∀ us : List (Use Nat), (∀ u ∈ us, FairUse exSetup.cfg ctypesTable clStore u) →
      let s' := reload [] clStore
      let r := useAll (hdrEnv exSetup.cfg ctypesTable s') n (hdrLib exSetup.cfg ctypesTable s' n (fun _ => true) false)
        (hdrStart s') (us ++ [.look (.call .types c%"vec")])
      ∃ c, r.1[us.length]? = some (.looked (.ok (.obj (.cls c)))) ∧
        Mirrors ctypesTable r.2.b.structs c (.arr (some 3) (.base c%"double")) := by
  refine ⟨clFiles, ?_⟩
  obtain ⟨N, h⟩ := C78_reload_partial (A := Nat) exSetup (by simp [ExtraWords, exSetup]) [] (by simp) _ clStore clSafe clFiles ctypesTable
    clLib ptrTable_ctypes (fun _ => true)
  refine ⟨N, fun n hn us hu => ?_⟩
  intro s' r
  obtain ⟨hlen, hall⟩ := h n hn (us ++ [.look (.call .types c%"vec")]) (by
    intro u hm
    rcases List.mem_append.1 hm with hm | hm
    · exact hu u hm
    · simp only [List.mem_singleton] at hm
      subst hm
      exact .look _ ⟨clUsable _ _, by simp⟩)
  have hlt : us.length < r.1.length := by show us.length < List.length _; rw [hlen]; simp
  have hr := hall us.length (.look (.call .types c%"vec")) _ (by simp) (List.getElem?_eq_getElem hlt)
  rw [List.getElem?_eq_getElem hlt]
  change UseRight _ _ _ _ r.2.b.structs _ r.1[us.length] at hr
  generalize r.1[us.length] = res at hr
  have hv : dget (clStore.defs .types) c%"vec" = some (.type (ctTy c%"double" [clArr 3])) := by rw [clTypes]; rfl
  cases hr with
  | look _ o hq =>
    change Gives _ _ _ _ _ _ _ o at hq
    generalize hk : Kind.types = k, hx : c%"vec" = x at hq
    cases hq with
    | kind _ _ h => subst hk; simp [lookKinds] at h
    | absent _ _ _ h => subst hk hx; rw [dhas, hv] at h; cases h
    | value => cases hk
    | enum => cases hk
    | hidden => cases hk
    | func => cases hk
    | comp u => cases u <;> cases hk
    | tagName _ hi => subst hx; exact absurd clVecName hi
    | typedef _ t v c hi h1 h2 hm =>
      subst hx
      rw [hv] at h1
      cases h1
      exact ⟨c, rfl, by rw [← C73_unique _ _ _ _ _ h2 clVec]; exact hm⟩

end Pyclib
