import Verif.Proof.LibRight
import Verif.Props.Lib
/-!
C73: a library as a whole, from the headers to the objects that lookups return.

Full statement: for every set of C headers, every lookup in the library returns the object of the
definition with that name, or raises the documented error.  Proved for headers with `LibOk` and lookups of
usable definitions (Spec/Library.lean); the rest is false (the counterexamples of C39, C47, C48, C49, C50 and C72).
-/
namespace Pyclib
open Spec

/-! ### The C type of a type is unique -/

mutual
theorem expand_unique {cfg : Cfg} {td : Str → CTy → Prop} (htd : ∀ n u u', td n u → td n u' → u = u') :
    {k : Nat} → {u v : CTy} → Expand cfg td k u v → ∀ {k' : Nat} {v' : CTy}, Expand cfg td k' u v' → v = v'
  | _, _, _, .fund k s hf => fun h => by
    cases h with
    | fund => rfl
    | name _ _ u _ hn => exact (hn hf).elim
  | _, _, _, .name k s u v hn hd h => fun h' => by
    cases h' with
    | fund _ _ hf => exact (hn hf).elim
    | name _ _ u' _ _ hd' h' => cases htd _ _ _ hd hd'; exact expand_unique htd h h'
  | _, _, _, .ptr k u v h => fun h' => by
    cases h' with
    | ptr _ _ _ h' => rw [expand_unique htd h h']
  | _, _, _, .ref k u v h => fun h' => by
    cases h' with
    | ref _ _ _ h' => rw [expand_unique htd h h']
  | _, _, _, .arr k n u v h => fun h' => by
    cases h' with
    | arr _ _ _ _ h' => rw [expand_unique htd h h']
  | _, _, _, .fn k cs ds u v hp h => fun h' => by
    cases h' with
    | fn _ _ _ _ _ hp' h' => rw [expand_unique htd h h', expandParams_unique htd hp hp']
theorem expandParams_unique {cfg : Cfg} {td : Str → CTy → Prop} (htd : ∀ n u u', td n u → td n u' → u = u') :
    {k : Nat} → {cs ds : List (Option Str × CTy)} → ExpandParams cfg td k cs ds → ∀ {k' : Nat} {ds' : List (Option Str × CTy)},
      ExpandParams cfg td k' cs ds' → ds = ds'
  | _, _, _, .nil k => fun h => by cases h; rfl
  | _, _, _, .cons k n u v cs ds h hs => fun h' => by
    cases h' with
    | cons _ _ _ _ _ _ h' hs' => rw [expand_unique htd h h', expandParams_unique htd hs hs']
end

/-- C73: a type has at most one C type, so that "mirrors its C type" says one thing. -/
theorem C73_unique (cfg : Cfg) (s : Store DefVal) (t : CType) (v v' : CTy) (h : CMeaning cfg s t v) (h' : CMeaning cfg s t v') : v = v' := by
  obtain ⟨u, k, h1, h2⟩ := h
  obtain ⟨u', k', h1', h2'⟩ := h'
  cases C32_denotes_unique t u u' h1 h1'
  refine expand_unique (fun n u u' hu hu' => ?_) h2 h2'
  obtain ⟨t, e, d⟩ := hu
  obtain ⟨t', e', d'⟩ := hu'
  rw [e] at e'
  cases e'
  exact C32_denotes_unique t u u' d d'

theorem params_unique {cfg : Cfg} {types : Dict Str Str} {s : Store DefVal} {ps : List Param} {cs cs' : List (Option Str × CTy)}
    (h : ParamsOk cfg types s ps cs) (h' : ParamsOk cfg types s ps cs') : cs = cs' := by
  induction h generalizing cs' with
  | nil => cases h'; rfl
  | void p ps cs hp _ ih =>
    cases h' with
    | void _ _ _ _ h' => exact ih h'
    | cons _ _ _ _ hn => exact (hn hp).elim
  | cons p ps v cs hp ha hv _ ih =>
    cases h' with
    | void _ _ _ hn => exact (hp hn).elim
    | cons _ _ _ _ _ ha' _ h' => rw [ih h', C73_unique _ _ _ _ _ ha.means ha'.means]

section
variable {cfg : Cfg} {junk : Str → Str} {types : Dict Str Str} {s : Store DefVal} {exports : Str → Bool} {lock : Bool}

theorem loop_right (hs : TablesWf cfg junk s) (hl : LibOk cfg types s) {N n : Nat} (hb : Bound cfg types s lock N) (hn : N ≤ n) {x : Str} :
    ∀ (ks : List Kind) {st : LState CtObj CtState}, LibInv cfg types s exports st → (∀ k ∈ ks, Usable cfg types s k x) →
    LibInv cfg types s exports ((hdrLib cfg types s n exports lock).attrLoop x st ks).2 ∧
    Keeps st.b ((hdrLib cfg types s n exports lock).attrLoop x st ks).2.b ∧
    GivesAttr cfg types s exports ((hdrLib cfg types s n exports lock).attrLoop x st ks).2.b.structs x ks
      ((hdrLib cfg types s n exports lock).attrLoop x st ks).1 := by
  intro ks
  induction ks with
  | nil => intro st hi _; exact ⟨hi, .refl _, .nil⟩
  | cons k ks ih =>
    intro st hi hu
    have hnm : (hdrLib cfg types s n exports lock).names x = [x] := rfl
    simp only [Lib.attrLoop, hnm]
    cases hd : dhas (s.defs k) x with
    | false =>
      have : [x].find? (fun y => dhas ((hdrLib cfg types s n exports lock).defs k) y) = none := by
        simp only [List.find?_cons, List.find?_nil]; rw [defs_has hs, hd]
      rw [this]
      simp only
      obtain ⟨h1, h2, h3⟩ := ih hi (fun k' hk' => hu k' (by simp [hk']))
      exact ⟨h1, h2, .skip k ks _ hd h3⟩
    | true =>
      have : [x].find? (fun y => dhas ((hdrLib cfg types s n exports lock).defs k) y) = some x := by
        simp only [List.find?_cons, List.find?_nil]; rw [defs_has hs, hd]
      rw [this]
      simp only
      obtain ⟨h1, h2, h3⟩ := call_right hs hl hb hn hi (k := k) (x := x) ⟨hu k (by simp), fun _ h => by rw [hd] at h; cases h⟩
      cases hc : (hdrLib cfg types s n exports lock).call st k x with
      | mk res st1 =>
        rw [hc] at h1 h2 h3
        cases res with
        | error y => exact ⟨h1, h2, .take k ks _ hd h3 (by simp)⟩
        | ok o =>
          simp only
          cases ho : o.isNone (hdrLib cfg types s n exports lock).isNull with
          | true =>
            simp only [if_true]
            obtain ⟨g1, g2, g3⟩ := ih h1 (fun k' hk' => hu k' (by simp [hk']))
            refine ⟨g1, h2.trans g2, .none k ks o _ hd (gives_mono g2 h3) ?_ g3⟩
            cases o with
            | val v => cases v <;> simp [LObj.isNone] at ho; exact .inl rfl
            | enum d => simp [LObj.isNone] at ho
            | obj o =>
              cases o with
              | cls c => cases c <;> simp [LObj.isNone, ctLib, CtObj.isNone] at ho; exact .inr rfl
              | func f g => simp [LObj.isNone, ctLib, CtObj.isNone] at ho
          | false =>
            simp only [Bool.false_eq_true, if_false]
            refine ⟨h1, h2, .take k ks _ hd h3 ⟨?_, ?_⟩⟩
            · intro h; cases h; simp [LObj.isNone] at ho
            · intro h; cases h; simp [LObj.isNone, ctLib, CtObj.isNone] at ho

theorem look_right (hs : TablesWf cfg junk s) (hl : LibOk cfg types s) {N n : Nat} (hb : Bound cfg types s lock N) (hn : N ≤ n)
    {st : LState CtObj CtState} (hi : LibInv cfg types s exports st) {q : Look} (hq : FairLook cfg types s q) :
    LibInv cfg types s exports ((hdrLib cfg types s n exports lock).look st q).2 ∧
    Keeps st.b ((hdrLib cfg types s n exports lock).look st q).2.b ∧
    LookRight cfg types s exports ((hdrLib cfg types s n exports lock).look st q).2.b.structs q ((hdrLib cfg types s n exports lock).look st q).1 := by
  cases q with
  | call k x => exact call_right hs hl hb hn hi hq
  | attr x =>
    simp only [Lib.look, Lib.getattr]
    cases ha : dget st.all x with
    | some o => exact ⟨hi, .refl _, hi.all x o ha⟩
    | none =>
      simp only
      obtain ⟨h1, h2, h3⟩ := loop_right (exports := exports) hs hl hb hn (x := x) lookKinds hi hq
      cases hc : (hdrLib cfg types s n exports lock).attrLoop x st lookKinds with
      | mk res st1 =>
        rw [hc] at h1 h2 h3
        cases res with
        | error y => exact ⟨h1, h2, h3⟩
        | ok o =>
          refine ⟨⟨h1.reach, h1.objs, fun n' o' h => ?_, h1.fin⟩, h2, h3⟩
          simp only at h
          rw [dget_dset] at h
          split at h
          · rename_i he; subst he; cases h; exact h3
          · exact h1.all _ _ h

theorem lookRight_mono {S S' : Dict Str Nat} (hk : ∀ tag id, dget S tag = some id → dget S' tag = some id) {q : Look}
    {res : Except PyErr (LObj CtObj)} (h : LookRight cfg types s exports S q res) : LookRight cfg types s exports S' q res := by
  cases q with
  | call k x => exact gives_mono hk h
  | attr x => exact givesAttr_mono hk h

theorem session_right (hs : TablesWf cfg junk s) (hl : LibOk cfg types s) {N n : Nat} (hb : Bound cfg types s lock N) (hn : N ≤ n) :
    ∀ (qs : List Look) {st : LState CtObj CtState}, LibInv cfg types s exports st → (∀ q ∈ qs, FairLook cfg types s q) →
    LibInv cfg types s exports ((hdrLib cfg types s n exports lock).session st qs).2 ∧
    Keeps st.b ((hdrLib cfg types s n exports lock).session st qs).2.b ∧
    ((hdrLib cfg types s n exports lock).session st qs).1.length = qs.length ∧
    ∀ (i : Nat) q res, qs[i]? = some q → ((hdrLib cfg types s n exports lock).session st qs).1[i]? = some res →
      LookRight cfg types s exports ((hdrLib cfg types s n exports lock).session st qs).2.b.structs q res := by
  intro qs
  induction qs with
  | nil => intro st hi _; exact ⟨hi, .refl _, rfl, by simp⟩
  | cons q qs ih =>
    intro st hi hq
    obtain ⟨h1, h2, h3⟩ := look_right hs hl hb hn hi (hq q (by simp))
    obtain ⟨g1, g2, g3, g4⟩ := ih h1 (fun q' h => hq q' (by simp [h]))
    refine ⟨g1, h2.trans g2, by simp [Lib.session, g3], fun i q' res hi hres => ?_⟩
    cases i with
    | zero => simp [Lib.session] at hi hres; subst hi hres; exact lookRight_mono g2 h3
    | succ i => exact g4 i q' res (by simpa using hi) (by simpa [Lib.session] using hres)

/-- C73 (partial: `LibOk`, fair lookups): in the library of a header, every lookup of any sequence of lookups
has the right outcome, in terms of what the header declares: functions have parameter and result classes
that mirror the declared C types, typedefs the class of their C type, tags their Structure or Union class, values
and enums what was recorded; unknown names raise.  The outcomes are right with respect to the Structure and Union
classes that exist at the end of the sequence, so they stay right. -/
theorem C73_session_partial (hs : TablesWf cfg junk s) (hl : LibOk cfg types s) (exports : Str → Bool) (lock : Bool) :
    ∃ N, ∀ n, N ≤ n → ∀ qs, (∀ q ∈ qs, FairLook cfg types s q) →
      ((hdrLib cfg types s n exports lock).session (hdrStart s) qs).1.length = qs.length ∧
      ∀ (i : Nat) q res, qs[i]? = some q → ((hdrLib cfg types s n exports lock).session (hdrStart s) qs).1[i]? = some res →
        LookRight cfg types s exports ((hdrLib cfg types s n exports lock).session (hdrStart s) qs).2.b.structs q res := by
  obtain ⟨N, hb⟩ := bound_exists hs hl lock
  exact ⟨N, fun n hn qs hq => (session_right hs hl hb hn qs start_inv hq).2.2⟩

/-- C73 (partial: `LibOk`, fair lookups): after any sequence of lookups every Structure and Union class is
finished and belongs to the struct or union of the header with its tag: same packing, the members in order
with their names, and classes that mirror their C types; anonymous are the members without name. -/
theorem C73_classes_partial (hs : TablesWf cfg junk s) (hl : LibOk cfg types s) (exports : Str → Bool) (lock : Bool) :
    ∃ N, ∀ n, N ≤ n → ∀ qs, (∀ q ∈ qs, FairLook cfg types s q) →
      let st := ((hdrLib cfg types s n exports lock).session (hdrStart s) qs).2.b
      ∀ tag id, dget st.structs tag = some id → ∃ c fs ms, st.classes[id]? = some c ∧ c.fields = some fs ∧ c.name = tag ∧
        dget (s.defs (compKind c.union)) tag = some (.compound ms c.pack) ∧ fs.length = ms.length ∧
        (∀ n, n ∈ c.anon ↔ ∃ (j : Nat) (m : Member) (f : Str × Cls × PVal), ms[j]? = some m ∧ m.name = none ∧ fs[j]? = some f ∧ f.1 = n) ∧
        ∀ (j : Nat) (m : Member), ms[j]? = some m → ∃ f, fs[j]? = some f ∧ (∀ x, m.name = some x → f.1 = x) ∧
          (m.name = none → ∃ k, f.1 = c%"anon_member" ++ natDigits k) ∧ f.2.2 = m.val ∧
          ∀ v, CMeaning cfg s m.type v → Mirrors types st.structs f.2.1 v := by
  obtain ⟨N, hb⟩ := bound_exists hs hl lock
  refine ⟨N, fun n hn qs hq => ?_⟩
  intro st tag id hid
  have hi := (session_right (exports := exports) hs hl hb hn qs start_inv hq).1
  obtain ⟨ks, hr, _⟩ := hi.reach
  obtain ⟨c, hc, _⟩ := (ctReach_inv (lib_world hs hl) hr).1.cls.tag tag id hid
  cases hf : c.fields with
  | none => exact (hi.fin id ⟨c, hc, hf⟩).elim
  | some fs =>
    obtain ⟨h1, ms, h2, h3, h4⟩ := C70_fields_partial hs hl ks st hr tag id c fs hid hc hf
    exact ⟨c, fs, ms, hc, hf, h1, h2, h3, h4⟩

end

/-- C73 (partial: as `C73_session_partial`), for a list of header files. -/
theorem C73_files_partial (w : Setup) (he : ExtraWords w.cfg) (fs : List (Str × Str)) (s : Store DefVal)
    (h : processFiles w Store.empty fs = .ok s) (types : Dict Str Str) (hl : LibOk w.cfg types s) (exports : Str → Bool) (lock : Bool) :
    ∃ N, ∀ n, N ≤ n → ∀ qs, (∀ q ∈ qs, FairLook w.cfg types s q) →
      ((hdrLib w.cfg types s n exports lock).session (hdrStart s) qs).1.length = qs.length ∧
      ∀ (i : Nat) q res, qs[i]? = some q → ((hdrLib w.cfg types s n exports lock).session (hdrStart s) qs).1[i]? = some res →
        LookRight w.cfg types s exports ((hdrLib w.cfg types s n exports lock).session (hdrStart s) qs).2.b.structs q res :=
  C73_session_partial (C69_files w he fs _ s (C69_empty _ _) h) hl exports lock

/-! ### Example -/

theorem clNoValue : dhas (clStore.defs .values) c%"visit" = false := by decide +kernel

attribute [local irreducible] clStore

theorem clCb' : AskOk exSetup.cfg ctypesTable clStore
    (ctTy c%"int" [.fn [(none, ctTy c%"struct node" [ctPtr], none), (none, ctTy c%"char" [ctPtr], none)], ctPtr])
    (.ptr (.fn [(none, .ptr (.base c%"struct node")), (none, .ptr (.base c%"char"))] (.base c%"int"))) := by
  refine ⟨⟨clShape rfl, fun ps p u hf hp hi => ?_⟩, ?_, ⟨_, 0, .fn _ _ _ _ _ (.cons _ _ _ _ _ _ (.ptr _ _ _ (.nil _)) (.cons _ _ _ _ _ _ (.ptr _ _ _ (.nil _)) .nil)) (.ptr _ _ _ (.nil _)),
      (.ptr _ _ _ (.fn _ _ _ _ _ (.cons _ _ _ _ _ _ (.ptr _ _ _ (clFund (by rfl) rfl))
        (.cons _ _ _ _ _ _ (.ptr _ _ _ (clFund (by rfl) rfl)) (.nil _))) (clFund (by rfl) rfl)))⟩, clCb.build⟩
  · simp [ctTy, ctPtr] at hf
    subst hf
    simp at hp
    rcases hp with rfl | rfl <;> (rw [inside_noFn hi (by simp)]; exact clShape rfl)
  · refine .mk _ rfl (fun b ps p hb hp hps => ?_)
    have h1 := (C01_result _ _ _ _ clMap (by rfl)).2 ⟨b, hb, rfl⟩
    rw [clTm, clTypes] at h1
    have h3 := h1.symm.trans (show _ = .ok (ctTy c%"int" [.fn [(none, ctTy c%"struct node" [ctPtr], none), (none, ctTy c%"char" [ctPtr], none)], ctPtr]) from rfl)
    simp only [Except.ok.injEq, ctTy, TypeF.mk.injEq] at h3
    rw [h3.2.1] at hp
    simp [ctPtr] at hp
    subst hp
    simp only [List.mem_cons, List.not_mem_nil, or_false] at hps
    rcases hps with rfl | rfl
    · exact clFinite rfl (r := ctTy c%"struct node" [ctPtr]) rfl (by simp [ctTy, ctPtr])
    · exact clFinite rfl (r := ctTy c%"char" [ctPtr]) rfl (by simp [ctTy, ctPtr])

/-- Every definition of `clText` is usable. -/
theorem clUsable (k : Kind) (n : Str) : Usable exSetup.cfg ctypesTable clStore k n := by
  cases k with
  | functions =>
    intro r ps q h
    rw [clFunctions] at h
    have := dget_some_mem h
    simp at this
    rcases this with ⟨_, rfl, rfl, _⟩ | ⟨_, rfl, rfl, _⟩
    · exact ⟨by unfold NoConv; simp [ctTy], ⟨_, ⟨clShape rfl, by simp [ctTy]⟩, clFinite rfl (r := ctTy c%"int" []) rfl (by simp [ctTy]),
        ⟨_, 0, .nil _, clFund (by rfl) rfl⟩, .prim _ _ (by rfl)⟩, clCs, clParamsOk⟩
    · exact ⟨by unfold NoConv; simp [ctTy], ⟨.base c%"void", ⟨clShape rfl, by simp [ctTy]⟩, clFinite rfl (r := ctTy c%"void" []) rfl (by simp [ctTy]),
        ⟨_, 0, .nil _, clFund (by rfl) rfl⟩, .void⟩, [], .void _ _ _ (by simp [VoidParam, ctTy]) .nil⟩
  | types =>
    intro t hi h
    rw [clTypes] at h
    have := dget_some_mem h
    simp at this
    rcases this with ⟨_, rfl⟩ | ⟨rfl, rfl⟩ | ⟨_, rfl⟩
    · exact ⟨.arr (some 3) (.base c%"double"), ⟨clShape rfl, by simp [ctTy, clArr]⟩, clFinite rfl (r := ctTy c%"double" [clArr 3]) rfl (by simp [ctTy, clArr]),
        ⟨_, 0, .arrs _ [] _ [] _ (by simp) (.nil _), .arr _ _ _ _ (clFund (by rfl) rfl)⟩, .arr _ _ (by decide) (by simp) (.prim _ _ (by rfl))⟩
    · exact absurd (name_not_tag hi) (by decide)
    · exact ⟨_, clCb'⟩
  | _ => trivial

/-- C73 on a header text: after any sequence of lookups (no typedef name as a tag), `lib.visit` is the function, with
the declared parameter names and classes that mirror the declared types. -/
theorem C73_example : processFiles exSetup Store.empty [(c%"t.h", clText)] = .ok clStore ∧
    ∃ N, ∀ n, N ≤ n → ∀ qs : List Look, (∀ k x, .call k x ∈ qs → x ≠ c%"vec" ∧ x ≠ c%"cb_t" ∧ x ≠ c%"struct node") →
      let st := ((hdrLib exSetup.cfg ctypesTable clStore n (fun _ => true) false).session (hdrStart clStore) (qs ++ [.attr c%"visit"])).2.b.structs
      ∃ g, ((hdrLib exSetup.cfg ctypesTable clStore n (fun _ => true) false).session (hdrStart clStore)
          (qs ++ [.attr c%"visit"])).1[qs.length]? = some (.ok (.obj (.func c%"visit" g))) ∧
        g.params.map (·.1) = [some c%"first", some c%"cb", some c%"msg", some c%"n"] ∧
        Mirrors ctypesTable st g.resType (.base c%"int") ∧ MirrorsArgs ctypesTable st g.argTypes clCs := by
  refine ⟨clFiles, ?_⟩
  obtain ⟨N, h⟩ := C73_files_partial exSetup (by simp [ExtraWords, exSetup]) _ _ clFiles ctypesTable clLib (fun _ => true) false
  refine ⟨N, fun n hn qs hq => ?_⟩
  have hfair : ∀ q ∈ qs ++ [.attr c%"visit"], FairLook exSetup.cfg ctypesTable clStore q := by
    intro q hm
    cases q with
    | attr x => exact fun k _ => clUsable k x
    | call k x =>
      refine ⟨clUsable k x, fun _ _ => ?_⟩
      obtain ⟨h1, h2, h3⟩ := hq k x (by simpa using hm)
      rw [clTypes]
      simp [dhas, dget, Ne.symm h1, Ne.symm h2, Ne.symm h3]
  obtain ⟨hlen, hall⟩ := h n hn _ hfair
  have hlt : qs.length < ((hdrLib exSetup.cfg ctypesTable clStore n (fun _ => true) false).session (hdrStart clStore)
      (qs ++ [.attr c%"visit"])).1.length := by rw [hlen]; simp
  have hr := hall qs.length (.attr c%"visit") _ (by simp) (List.getElem?_eq_getElem hlt)
  rw [List.getElem?_eq_getElem hlt]
  generalize ((hdrLib exSetup.cfg ctypesTable clStore n (fun _ => true) false).session (hdrStart clStore)
      (qs ++ [.attr c%"visit"])).1[qs.length] = res at hr
  have hv := clNoValue
  have hf : dhas (clStore.defs .functions) c%"visit" = true := by rw [clFunctions]; rfl
  have key : ∀ res, Gives exSetup.cfg ctypesTable clStore (fun _ => true)
      ((hdrLib exSetup.cfg ctypesTable clStore n (fun _ => true) false).session (hdrStart clStore) (qs ++ [.attr c%"visit"])).2.b.structs
      .functions c%"visit" res → ∃ g, res = .ok (.obj (.func c%"visit" g)) ∧ g.params.map (·.1) = [some c%"first", some c%"cb", some c%"msg", some c%"n"] ∧
        Mirrors ctypesTable ((hdrLib exSetup.cfg ctypesTable clStore n (fun _ => true) false).session (hdrStart clStore) (qs ++ [.attr c%"visit"])).2.b.structs g.resType (.base c%"int") ∧
        MirrorsArgs ctypesTable ((hdrLib exSetup.cfg ctypesTable clStore n (fun _ => true) false).session (hdrStart clStore) (qs ++ [.attr c%"visit"])).2.b.structs g.argTypes clCs := by
    intro res hg
    generalize hk : Kind.functions = k at hg
    cases hg with
    | kind k n h => subst hk; exact absurd (by simp [lookKinds]) h
    | absent k n _ h => subst hk; rw [hf] at h; cases h
    | hidden f _ hx => cases hx
    | func f r ps q u cs g h1 _ hr hps hnm hmr hma =>
      rw [clVisit] at h1
      cases h1
      cases params_unique hps clParamsOk
      cases C73_unique _ _ _ _ (.base c%"int") hr ⟨_, 0, .nil _, clFund (by rfl) rfl⟩
      exact ⟨g, rfl, hnm, hmr, hma⟩
    | comp u _ _ _ _ => cases u <;> cases hk
    | _ => cases hk
  cases hr with
  | skip _ _ _ _ hr =>
    cases hr with
    | skip _ _ _ h => rw [hf] at h; cases h
    | none _ _ o _ _ hg ho =>
      obtain ⟨g, hg, _⟩ := key _ hg
      cases hg
      rcases ho with ho | ho <;> cases ho
    | take _ _ _ _ hg _ =>
      obtain ⟨g, rfl, h⟩ := key _ hg
      exact ⟨g, rfl, h⟩
  | none _ _ o _ h => rw [hv] at h; cases h
  | take _ _ _ h => rw [hv] at h; cases h

/-- C39 fails for a typedef of `void`: after `typedef void nothing;` the name is defined and `lib('types', 'nothing')`
works, but its class is `None`, so `lib.nothing` raises `NameError`. -/
theorem C39_counterexample_void :
    let l := ctLib (cxEnv [(c%"nothing", .type (ctTy c%"void" []))] []) [] 5 [] (fun _ => true) false
    (l.look (.init exStart) (.call .types c%"nothing")).1 = .ok (.obj (.cls .void)) ∧
    (l.look (.init exStart) (.attr c%"nothing")).1 = .error .nameError := by
  refine ⟨by rfl, by rfl⟩

/-- C73 fails for a typedef name used as a tag: with `typedef struct s { int x; } t;` and `lib('structs', 's')` looked up,
`lib('structs', 't')` makes a second class for the same struct and registers it for the tag; `lib('structs', 's')` stays the
first, while types with that struct looked up from then on get the second. -/
theorem C73_counterexample_alias :
    let l := ctLib (cxEnv [(c%"struct s", .type (ctTy c%"struct" [.sym c%"s"])), (c%"t", .type (ctTy c%"struct s" []))]
      [(c%"s", .compound [⟨some c%"x", ctTy c%"int" [], .none, none⟩] none)]) [] 5 [] (fun _ => true) false
    let r := l.session (.init exStart) [.call .structs c%"s", .call .structs c%"t", .call .structs c%"s"]
    r.1 = [.ok (.obj (.cls (.comp 0))), .ok (.obj (.cls (.comp 1))), .ok (.obj (.cls (.comp 0)))] ∧
    dget r.2.b.structs c%"s" = some 1 := by
  refine ⟨by rfl, by rfl⟩

end Pyclib
