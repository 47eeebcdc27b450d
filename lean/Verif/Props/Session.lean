import Verif.Proof.SessionArgs
import Verif.Props.Library
/-!
C74: using a library: lookups, calls and questions for argument types in any order.

Full statement: for every set of C headers, every call of a function of the library passes the right argument for each
parameter or raises `TypeError` because an argument cannot be passed, whatever was done with the library before; and
`arg_c_type` tells the class of a parameter.  Proved for headers with `LibOk` and fair uses (Spec/Session.lean); the rest is
false (the counterexamples of C43, C48, C49, C72, C73 and `C74_counterexample_argtype`).
-/
namespace Pyclib
open Spec

section
variable {cfg : Cfg} {junk : Str → Str} {types : Dict Str Str} {s : Store DefVal} {exports : Str → Bool} {lock : Bool}

/-! ### Where the function objects come from -/

/-- A function object was made from the definition of its name. -/
def FromHeader (cfg : Cfg) (types : Dict Str Str) (s : Store DefVal) (lock : Bool) : LObj CtObj → Prop
  | .obj (.func f g) => ∃ n st st' r ps q, dget (hdrFns s) f = some (.func (.func r ps q)) ∧
      initFunc (hdrEnv cfg types s) n st r ps lock = (.ok g, st')
  | _ => True

/-- All stored objects were. -/
structure AllFrom (cfg : Cfg) (types : Dict Str Str) (s : Store DefVal) (lock : Bool) (st : LState CtObj CtState) : Prop where
  objs : ∀ k n o, dget (st.objs k) n = some o → FromHeader cfg types s lock o
  all : ∀ n o, dget st.all n = some o → FromHeader cfg types s lock o

theorem build_from {n : Nat} {k : Kind} {x : Str} {b : CtState} {o : LObj CtObj}
    (h : ((hdrLib cfg types s n exports lock).build k x b).1 = .ok o) : FromHeader cfg types s lock o := by
  cases k with
  | values =>
    simp only [Lib.build] at h
    split at h <;> simp at h
    subst h; trivial
  | functions =>
    simp only [Lib.build, ctLib, getFunction] at h
    by_cases hx : exports x = true
    · simp only [hx, if_true] at h
      cases hd : dget (hdrFns s) x with
      | none => simp [hd] at h
      | some v =>
        cases v with
        | func y =>
          cases y with
          | plain t => simp [hd] at h
          | func r ps q =>
            simp only [hd] at h
            cases hi : initFunc (hdrEnv cfg types s) n b r ps lock with
            | mk res st' =>
              rw [hi] at h
              cases res with
              | error y => simp at h
              | ok g =>
                simp at h; subst h
                exact ⟨n, b, st', r, ps, q, hd, hi⟩
        | _ => simp [hd] at h
    · simp [hx] at h
  | types =>
    simp only [Lib.build, ctLib] at h
    split at h
    · rename_i t _
      cases hX : getType (hdrEnv cfg types s) n b t with
      | mk res st' =>
        rw [hX] at h
        cases res <;> simp [clsObj] at h
        subst h; trivial
    · simp at h
    · simp at h
  | structs =>
    simp only [Lib.build, ctLib] at h
    cases hX : getStruct (hdrEnv cfg types s) (getType (hdrEnv cfg types s) n) b false x with
    | mk res st' =>
      rw [hX] at h
      cases res <;> simp [clsObj] at h
      subst h; trivial
  | unions =>
    simp only [Lib.build, ctLib] at h
    cases hX : getStruct (hdrEnv cfg types s) (getType (hdrEnv cfg types s) n) b true x with
    | mk res st' =>
      rw [hX] at h
      cases res <;> simp [clsObj] at h
      subst h; trivial
  | enums =>
    simp only [Lib.build, Lib.getEnum] at h
    have hf : ∀ n', (match dget ((hdrLib cfg types s n exports lock).defs .enums) n' with
        | some (.enum d) => (.ok (.enum d) : Except PyErr (LObj CtObj))
        | some _ => .error .typeError
        | none => .error .keyError) = .ok o → FromHeader cfg types s lock o := by
      intro n' h
      split at h <;> simp at h
      subst h; trivial
    split at h
    · exact hf _ h
    · split at h
      · split at h
        · simp at h
        · split at h
          · split at h
            · simp at h
            · split at h
              · exact hf _ h
              · simp at h
              · simp at h
          · simp at h
      · simp at h
  | _ => simp [Lib.build] at h

theorem call_from {n : Nat} {st : LState CtObj CtState} (h : AllFrom cfg types s lock st) (k : Kind) (x : Str) :
    AllFrom cfg types s lock ((hdrLib cfg types s n exports lock).call st k x).2 ∧
    ∀ o, ((hdrLib cfg types s n exports lock).call st k x).1 = .ok o → FromHeader cfg types s lock o := by
  unfold Lib.call
  split
  · exact ⟨h, by simp⟩
  · cases hd : dget (st.objs k) x with
    | some o => exact ⟨h, fun o' ho => by simp at ho; subst ho; exact h.objs k x o hd⟩
    | none =>
      simp only
      have key : ∀ o, ((hdrLib cfg types s n exports lock).makeObj st k x).1 = .ok o → FromHeader cfg types s lock o := by
        intro o ho
        unfold Lib.makeObj at ho
        split at ho
        · simp at ho
        · split at ho
          · simp at ho
          · exact build_from ho
      cases hm : (hdrLib cfg types s n exports lock).makeObj st k x with
      | mk res b =>
        rw [hm] at key
        cases res with
        | error y => exact ⟨⟨h.objs, h.all⟩, by simp⟩
        | ok o =>
          refine ⟨⟨fun k' n' o' ho => ?_, h.all⟩, fun o' ho => by simp at ho; subst ho; exact key o rfl⟩
          simp only at ho
          split at ho
          · rw [dget_dset] at ho
            split at ho
            · cases ho; exact key o rfl
            · exact h.objs _ _ _ ho
          · exact h.objs _ _ _ ho

theorem loop_from {n : Nat} {x : Str} : ∀ (ks : List Kind) {st : LState CtObj CtState}, AllFrom cfg types s lock st →
    AllFrom cfg types s lock ((hdrLib cfg types s n exports lock).attrLoop x st ks).2 ∧
    ∀ o, ((hdrLib cfg types s n exports lock).attrLoop x st ks).1 = .ok o → FromHeader cfg types s lock o := by
  intro ks
  induction ks with
  | nil => intro st h; exact ⟨h, by simp [Lib.attrLoop]⟩
  | cons k ks ih =>
    intro st h
    simp only [Lib.attrLoop]
    split
    · exact ih h
    · rename_i y _
      obtain ⟨h1, h2⟩ := call_from (exports := exports) (n := n) h k y
      cases hc : (hdrLib cfg types s n exports lock).call st k y with
      | mk res st1 =>
        rw [hc] at h1 h2
        cases res with
        | error z => exact ⟨h1, by simp⟩
        | ok o =>
          simp only
          split
          · exact ih h1
          · exact ⟨h1, h2⟩

theorem look_from {n : Nat} {st : LState CtObj CtState} (h : AllFrom cfg types s lock st) (q : Look) :
    AllFrom cfg types s lock ((hdrLib cfg types s n exports lock).look st q).2 ∧
    ∀ o, ((hdrLib cfg types s n exports lock).look st q).1 = .ok o → FromHeader cfg types s lock o := by
  cases q with
  | call k x => exact call_from h k x
  | attr x =>
    simp only [Lib.look, Lib.getattr]
    cases ha : dget st.all x with
    | some o => exact ⟨h, fun o' ho => by simp at ho; subst ho; exact h.all x o ha⟩
    | none =>
      simp only
      obtain ⟨h1, h2⟩ := loop_from (exports := exports) (n := n) (x := x) lookKinds h
      cases hc : (hdrLib cfg types s n exports lock).attrLoop x st lookKinds with
      | mk res st1 =>
        rw [hc] at h1 h2
        cases res with
        | error y => exact ⟨h1, by simp⟩
        | ok o =>
          refine ⟨⟨h1.objs, fun n' o' ho => ?_⟩, h2⟩
          simp only at ho
          rw [dget_dset] at ho
          split at ho
          · cases ho; exact h2 o rfl
          · exact h1.all _ _ ho

/-! ### Functions of the header -/

theorem initFunc_shape {e : CtEnv} {n : Nat} {st st' : CtState} {r : CType} {ps : List Param} {g : CFunc}
    (h : initFunc e n st r ps lock = (.ok g, st')) : g.params = ps.filter (fun p => !isVoidParam p) ∧ g.lockCall = lock := by
  unfold initFunc at h
  simp only at h
  split at h
  · simp at h
  · split at h
    · simp at h
    · split at h
      · simp at h
      · split at h
        · simp at h
        · simp at h; rw [← h.1]; exact ⟨rfl, rfl⟩

/-- A bound on the recursion that is enough for the parameters of every usable function. -/
def ParBound (cfg : Cfg) (types : Dict Str Str) (s : Store DefVal) (N : Nat) : Prop :=
  ∀ f r ps q, Usable cfg types s .functions f → dget (hdrFns s) f = some (.func (.func r ps q)) →
    ∀ p ∈ ps.filter (fun p => !isVoidParam p), Steady N (fun n st => getType (hdrEnv cfg types s) n st p.2.1)

/-- The parameters of a function of the header, numbered, with their C types. -/
theorem fn_params (hs : TablesWf cfg junk s) {f : Str} {r : CType} {ps : List Param} {q : List Qual}
    (hf : dget (s.defs .functions) f = some (.func (.func r ps q))) {cs : List (Option Str × CTy)} (hps : ParamsOk cfg types s ps cs) :
    ∃ k r' ls, dget (hdrFns s) f = some (.func (.func r' (libFn s (hdrTypes s) k ps) q)) ∧
      WrapParams (hdrEnv cfg types s) (libOwn s (hdrTypes s)) (libDim s (hdrTypes s)) ls
        ((libFn s (hdrTypes s) k ps).filter (fun p => !isVoidParam p)) cs ∧
      ps.map (·.2.1) <+: (hdrTypes s).drop (k + 1) := by
  obtain ⟨k, r', e1, e2, e3, e4⟩ := fn_entry hs hf
  obtain ⟨t, ht⟩ := e2
  have hpre : ps.map (·.2.1) <+: (hdrTypes s).drop (k + 1) := by
    refine ⟨t, ?_⟩
    have := congrArg List.tail ht
    simpa using this
  obtain ⟨ls, g3, _, _⟩ := wrapParams_lib hs hps (fun p hp => asked_wf hs (.param f r ps q p hf hp)) k hpre
  exact ⟨k, r', ls, e4, g3, hpre⟩

theorem fns_has (hs : TablesWf cfg junk s) {f : Str} {v : DefVal} (h : dget (hdrFns s) f = some v) :
    ∃ r ps q, dget (s.defs .functions) f = some (.func (.func r ps q)) := by
  have : dhas (s.defs .functions) f = true := by rw [← numFns_has (lib s (hdrTypes s)).2.1 f _ 0]; unfold dhas; rw [h]; rfl
  unfold dhas at this
  cases hdd : dget (s.defs .functions) f with
  | none => rw [hdd] at this; cases this
  | some v =>
    obtain ⟨_, r, ps, qs, rfl, _⟩ := hs _ _ _ hdd
    exact ⟨r, ps, qs, rfl⟩

theorem parBound_exists (hs : TablesWf cfg junk s) (hl : LibOk cfg types s) : ∃ N, ParBound cfg types s N := by
  have hw : CtWorld (hdrEnv cfg types s) (libOwn s (hdrTypes s)) := lib_world hs hl
  have hf := (lib_build (ts := hdrTypes s) hs hl).2
  obtain ⟨N, hN⟩ := common (fun (x : Str × DefVal) N => ∀ r ps q, Usable cfg types s .functions x.1 →
      dget (hdrFns s) x.1 = some (.func (.func r ps q)) → ∀ p ∈ ps.filter (fun p => !isVoidParam p),
        Steady N (fun n st => getType (hdrEnv cfg types s) n st p.2.1))
    (fun x N M h hm r ps q h1 h2 p hp => (h r ps q h1 h2 p hp).mono hm) (hdrFns s) (fun x hx => by
      obtain ⟨f, v⟩ := x
      simp only
      by_cases hd : ∃ r ps q, dget (s.defs .functions) f = some (.func (.func r ps q)) ∧ Usable cfg types s .functions f
      · obtain ⟨r, ps, q, hd, hu⟩ := hd
        obtain ⟨_, _, cs, hps⟩ := hu r ps q hd
        obtain ⟨k, r', ls, e4, g3, _⟩ := fn_params hs hd hps
        obtain ⟨N, hN⟩ := common (fun (p : Param) N => Steady N (fun n st => getType (hdrEnv cfg types s) n st p.2.1))
          (fun p N M h hm => h.mono hm) ((libFn s (hdrTypes s) k ps).filter (fun p => !isVoidParam p)) (fun p hp => by
            obtain ⟨i, hi⟩ := List.mem_iff_getElem?.1 hp
            obtain ⟨_, _, _, h⟩ := wrapParams_get g3 i p hi
            obtain ⟨N, hN, _⟩ := steady_type hw.tags hw.map hf p.2.1 h.finite
            exact ⟨N, hN⟩)
        refine ⟨N, fun r ps q _ h p hp => ?_⟩
        rw [e4] at h
        cases h
        exact hN p hp
      · refine ⟨0, fun r ps q hu h => (hd ?_).elim⟩
        obtain ⟨r, ps, q, h'⟩ := fns_has hs h
        exact ⟨r, ps, q, h', hu⟩)
  exact ⟨N, fun f r ps q hu hd => hN (f, _) (dget_some_mem hd) r ps q hu hd⟩

/-- A parameter that may be asked for repeatedly. -/
theorem shared_again (hs : TablesWf cfg junk s) {f : Str} {r : CType} {ps : List Param} {q : List Qual}
    (hf : dget (s.defs .functions) f = some (.func (.func r ps q))) {k : Nat} (hpre : ps.map (·.2.1) <+: (hdrTypes s).drop (k + 1))
    {x : Param} (hx : x ∈ libFn s (hdrTypes s) k ps) : ∃ p ∈ ps, x.1 = p.1 ∧ x.2.2 = p.2.2 ∧
      (AskAgain cfg s p.2.1 → TyOk (hdrEnv cfg types s) (libOwn s (hdrTypes s)) .shared x.2.1) := by
  have hwf : ∀ p ∈ ps, TypeWf (TypeName cfg junk s) p.2.1 := fun p hp => asked_wf hs (.param f r ps q p hf hp)
  obtain ⟨p, t', hp, rfl, j', htk⟩ := libFn_get (fun p hp => (typeWf_deep (hwf p hp)).arr) hpre x hx
  refine ⟨p, hp, rfl, rfl, fun hn => ?_⟩
  refine typeOk_ty hs (o := .shared) (t := p.2.1) ⟨htk.num, htk.nodup, fun i hi => ?_, htk.inside⟩ (hwf p hp) true (fun _ => rfl) hn.2
  simp only [idsOf, List.mem_filterMap] at hi
  obtain ⟨m, hm, he⟩ := hi
  cases m with
  | arr d => exact ((htk.num.mods.mem_plain.2 hn.1) d hm).elim
  | sym s => simp at he
  | fn ps => simp at he

variable {A : Type}

/-! ### What was given -/

theorem names_get {g : CFunc} {cs : List (Option Str × CTy)} (hn : g.params.map (·.1) = cs.map (·.1)) (i : Nat) :
    (g.params[i]?.map (·.1)) = cs[i]?.map (·.1) := by
  have := congrArg (fun l => l[i]?) hn
  simpa using this

theorem nameAt_cs {g : CFunc} {cs : List (Option Str × CTy)} (hn : g.params.map (·.1) = cs.map (·.1)) {i : Nat} {k : Str} :
    NameAt g.params i k ↔ ∃ v, cs[i]? = some (some k, v) := by
  have := names_get hn i
  unfold NameAt
  cases hp : g.params[i]? <;> cases hc : cs[i]? <;> simp [hp, hc] at this ⊢
  rename_i p c
  obtain ⟨c1, c2⟩ := c
  simp only at this ⊢
  rw [this]
  simp

theorem nodup_mem_dget {κ α : Type} [DecidableEq κ] {d : Dict κ α} (hn : (d.map (·.1)).Nodup) {k : κ} {v : α} (h : (k, v) ∈ d) : dget d k = some v := by
  induction d with
  | nil => simp at h
  | cons x d ih =>
    obtain ⟨k', v'⟩ := x
    simp only [List.map_cons, List.nodup_cons] at hn
    rcases List.mem_cons.1 h with h | h
    · cases h; simp [dget]
    · have : k' ≠ k := by
        rintro rfl
        exact hn.1 (List.mem_map.2 ⟨_, h, rfl⟩)
      simp only [dget, if_neg this]
      exact ih hn.2 h

theorem argFor_given {g : CFunc} {cs : List (Option Str × CTy)} (hn : g.params.map (·.1) = cs.map (·.1)) {args : List (PyArg A)}
    {kws : List (Str × PyArg A)} (hnd : (kws.map (·.1)).Nodup) (i : Nat) :
    (∀ w, argFor cs args kws i = some w → Given g args kws i w) ∧ (argFor cs args kws i = none → Omitted g args kws i) := by
  have hno : (cs[i]?.bind (·.1)).bind (dget kws) = none → ∀ k w, (k, w) ∈ kws → ¬ NameAt g.params i k := by
    intro h k w hm ha
    obtain ⟨v, hv⟩ := (nameAt_cs hn).1 ha
    rw [hv] at h
    simp only [Option.bind_some] at h
    rw [nodup_mem_dget hnd hm] at h
    cases h
  unfold argFor
  cases h : (cs[i]?.bind (·.1)).bind (dget kws) with
  | some w =>
    refine ⟨fun w' hw => ?_, by simp⟩
    simp at hw; subst hw
    cases hc : cs[i]? with
    | none => simp [hc] at h
    | some c =>
      obtain ⟨c1, c2⟩ := c
      simp only [hc, Option.bind_some] at h
      cases c1 with
      | none => simp at h
      | some k => exact .inl ⟨k, dget_some_mem (by simpa using h), (nameAt_cs hn).2 ⟨c2, hc⟩⟩
  | none =>
    simp only
    exact ⟨fun w hw => .inr ⟨hno h, hw⟩, fun hw => ⟨hno h, by simpa using hw⟩⟩

/-! ### One use -/

theorem callRight_mono {S S' : Dict Str Nat} (hk : ∀ tag id, dget S tag = some id → dget S' tag = some id) {cs : List (Option Str × CTy)}
    {args : List (PyArg A)} {kws : List (Str × PyArg A)} {o : CallOut A} (h : CallRight types S cs args kws o) : CallRight types S' cs args kws o := by
  cases h with
  | called as gs hlen h ho hgs =>
    refine .called as gs hlen (fun i name v hi => ?_) ho hgs
    obtain ⟨a, h1, h2⟩ := h i name v hi
    exact ⟨a, h1, argRight_mono hk h2⟩
  | unfit i name v hi h => exact .unfit i name v hi h

theorem argTypeRight_mono {S S' : Dict Str Nat} (hk : ∀ tag id, dget S tag = some id → dget S' tag = some id) {cs : List (Option Str × CTy)}
    {k : PyKey} {r : Except PyErr Cls} (h : ArgTypeRight types S cs k r) : ArgTypeRight types S' cs k r := by
  cases h with
  | name i k v c hi h => exact .name i k v c hi (mirrors_mono hk h)
  | index i k v c hi h => exact .index i k v c hi (mirrors_mono hk h)
  | unknown k h => exact .unknown k h
  | range i h => exact .range i h

theorem useRight_mono {S S' : Dict Str Nat} (hk : ∀ tag id, dget S tag = some id → dget S' tag = some id) {u : Use A} {r : Seen A}
    (h : UseRight cfg types s exports S u r) : UseRight cfg types s exports S' u r := by
  cases h with
  | look q r h => exact .look q r (lookRight_mono hk h)
  | hidden f args kws h => exact .hidden f args kws h
  | invoke f ps cs args kws o hx hd h => exact .invoke f ps cs args kws o hx hd (callRight_mono hk h)
  | hiddenType f k h => exact .hiddenType f k h
  | argType f ps cs k r hx hd h => exact .argType f ps cs k r hx hd (argTypeRight_mono hk h)

/-- A new state of the backend. -/
theorem inv_after {st : LState CtObj CtState} (hi : LibInv cfg types s exports st) {ks : List Nat}
    (hks : ∀ j ∈ ks, ∃ f k r ps q, fnAt 0 (s.defs .functions) f = some k ∧
      dget (s.defs .functions) f = some (.func (.func r ps q)) ∧ k ≤ j ∧ j ≤ k + ps.length ∧ dhas (st.objs .functions) f = true)
    {b : CtState} (h : After (hdrEnv cfg types s) (libOwn s (hdrTypes s)) (libDim s (hdrTypes s)) ks st.b b) :
    LibInv cfg types s exports { st with b := b } :=
  ⟨⟨ks, h.reach, hks⟩, fun k n o hd => gives_mono h.keeps (hi.objs k n o hd), fun n o hd => givesAttr_mono h.keeps (hi.all n o hd),
    fun id hu => hi.fin id (h.new id hu)⟩

/-- The function a fair use names. -/
theorem getattr_func (hs : TablesWf cfg junk s) (hl : LibOk cfg types s) {N n : Nat} (hb : Bound cfg types s lock N) (hn : N ≤ n)
    {st : LState CtObj CtState} (hi : LibInv cfg types s exports st) (hfr : AllFrom cfg types s lock st)
    {f : Str} {ps : List Param} {cs : List (Option Str × CTy)} (hf : FairFn cfg types s f ps cs) :
    ∃ res st', (hdrLib cfg types s n exports lock).getattr st f = (res, st') ∧ LibInv cfg types s exports st' ∧
      AllFrom cfg types s lock st' ∧ Keeps st.b st'.b ∧
      ((exports f = false ∧ res = .error .keyError) ∨
       (exports f = true ∧ ∃ g, res = .ok (.obj (.func f g)) ∧ FromHeader cfg types s lock (.obj (.func f g)) ∧
         (∃ r ps q u, dget (s.defs .functions) f = some (.func (.func r ps q)) ∧ CMeaning cfg s r u ∧ Mirrors types st'.b.structs g.resType u) ∧
         MirrorsArgs types st'.b.structs g.argTypes cs)) := by
  obtain ⟨h1, h2, h3⟩ := look_right hs hl hb hn hi (q := .attr f) hf.usable
  obtain ⟨g1, g2⟩ := look_from (exports := exports) (n := n) hfr (.attr f)
  refine ⟨((hdrLib cfg types s n exports lock).look st (.attr f)).1, ((hdrLib cfg types s n exports lock).look st (.attr f)).2, rfl, h1, g1, h2, ?_⟩
  have hd : dhas (s.defs .functions) f = true := by
    obtain ⟨r, q, h⟩ := hf.decl.1
    unfold dhas; rw [h]; rfl
  have h3 : GivesAttr cfg types s exports ((hdrLib cfg types s n exports lock).look st (.attr f)).2.b.structs f attrOrder
      ((hdrLib cfg types s n exports lock).look st (.attr f)).1 := h3
  generalize ((hdrLib cfg types s n exports lock).look st (.attr f)).1 = res at h3 g2
  have key : ∀ S res, Gives cfg types s exports S .functions f res → (exports f = false ∧ res = .error .keyError) ∨
      (exports f = true ∧ ∃ g, res = .ok (.obj (.func f g)) ∧
         (∃ r ps q u, dget (s.defs .functions) f = some (.func (.func r ps q)) ∧ CMeaning cfg s r u ∧ Mirrors types S g.resType u) ∧
         MirrorsArgs types S g.argTypes cs) := by
    intro S res hg
    generalize hk : Kind.functions = k at hg
    cases hg with
    | kind k n h => subst hk; exact absurd (by simp [lookKinds]) h
    | absent k n _ h => subst hk; rw [hd] at h; cases h
    | hidden f _ hx => exact .inl ⟨hx, rfl⟩
    | func f r ps q u cs g h1 hx hr hps hnm hmr hma =>
      obtain ⟨⟨r0, q0, h0⟩, hps0⟩ := hf.decl
      rw [h1] at h0; cases h0
      cases params_unique hps hps0
      exact .inr ⟨hx, g, rfl, ⟨r, _, q, u, h1, hr, hmr⟩, hma⟩
    | comp u _ _ _ _ => cases u <;> cases hk
    | _ => cases hk
  cases h3 with
  | skip _ _ _ _ hr =>
    cases hr with
    | skip _ _ _ h => rw [hd] at h; cases h
    | none _ _ o _ _ hg ho =>
      rcases key _ _ hg with ⟨_, h⟩ | ⟨_, g, h, _⟩
      · cases h
      · cases h
        rcases ho with ho | ho <;> cases ho
    | take _ _ _ _ hg _ =>
      rcases key _ _ hg with h | ⟨hx, g, rfl, h⟩
      · exact .inl h
      · exact .inr ⟨hx, g, rfl, g2 _ rfl, h⟩
  | none _ _ o _ h => rw [hf.values] at h; cases h
  | take _ _ _ h => rw [hf.values] at h; cases h

/-- What is known of the object of a function. -/
theorem func_fit (hs : TablesWf cfg junk s) {N : Nat} (hpb : ParBound cfg types s N)
    {f : Str} {ps : List Param} {cs : List (Option Str × CTy)} (hf : FairFn cfg types s f ps cs) {g : CFunc}
    (hg : FromHeader cfg types s lock (.obj (.func f g))) :
    g.lockCall = lock ∧ g.params.map (·.1) = cs.map (·.1) ∧
    ∀ (i : Nat) x, g.params[i]? = some x → ∃ p v, p ∈ ps ∧ x.1 = p.1 ∧ x.2.2 = p.2.2 ∧ cs[i]? = some (p.1, v) ∧
      Fit (hdrEnv cfg types s) (libOwn s (hdrTypes s)) (libDim s (hdrTypes s)) N x v ∧
      (AskAgain cfg s p.2.1 → TyOk (hdrEnv cfg types s) (libOwn s (hdrTypes s)) .shared x.2.1) := by
  obtain ⟨n, st, st', r', ps', q', h1, h2⟩ := hg
  obtain ⟨⟨r, q, hd⟩, hps⟩ := hf.decl
  obtain ⟨k, r1, ls, e1, e2, e3⟩ := fn_params hs hd hps
  have e0 := h1
  rw [e1] at h1
  cases h1
  obtain ⟨hp, hlk⟩ := initFunc_shape h2
  rw [← hp] at e2
  refine ⟨hlk, wrapParams_names e2, fun i x hx => ?_⟩
  obtain ⟨j, v, hc, hwr⟩ := wrapParams_get e2 i x hx
  have hmem : x ∈ (libFn s (hdrTypes s) k ps).filter (fun p => !isVoidParam p) := by rw [← hp]; exact List.mem_of_getElem? hx
  obtain ⟨p, hpm, hx1, hx2, hag⟩ := shared_again hs hd e3 (List.mem_filter.1 hmem).1
  exact ⟨p, v, hpm, hx1, hx2, by rw [← hx1]; exact hc, ⟨⟨_, hwr.ok⟩, hwr.finite, hwr.means, hwr.build,
    hpb f _ _ _ (hf.usable .functions (by simp [attrOrder])) e0 x hmem⟩, hag⟩

/-- What holds of a library that is used. -/
def UseInv (cfg : Cfg) (types : Dict Str Str) (s : Store DefVal) (exports : Str → Bool) (st : LState CtObj CtState) : Prop :=
  LibInv cfg types s exports st ∧ AllFrom cfg types s false st

/-- A call of a function object of the library. -/
theorem invoke_right (hs : TablesWf cfg junk s) (hl : LibOk cfg types s) (hT : PtrTable types) {N n : Nat}
    (hpb : ParBound cfg types s N) (hn : N ≤ n) {st1 : LState CtObj CtState} (hi : LibInv cfg types s exports st1)
    {f : Str} {ps : List Param} {cs : List (Option Str × CTy)} {args : List (PyArg A)} {kws : List (Str × PyArg A)}
    (hf : FairFn cfg types s f ps cs) {g : CFunc} (hg : FromHeader cfg types s false (.obj (.func f g)))
    (few : args.length ≤ cs.length) (keys : (kws.map (·.1)).Nodup)
    (known : ∀ k w, (k, w) ∈ kws → ∃ x ∈ cs, x.1 = some k) (again : ∀ p ∈ ps, AskAgain cfg s p.2.1 ∨
      ∀ (i : Nat) v w, cs[i]? = some (p.1, v) → argFor cs args kws i = some w → w ≠ .none ∧ w ≠ .null) :
    LibInv cfg types s exports { st1 with b := (callFunc (hdrEnv cfg types s) n g (.error .nameError) st1.b args kws).2 } ∧
    Keeps st1.b (callFunc (hdrEnv cfg types s) n g (.error .nameError) st1.b args kws).2 ∧
    CallRight types (callFunc (hdrEnv cfg types s) n g (.error .nameError) st1.b args kws).2.structs cs args kws
      (callFunc (hdrEnv cfg types s) n g (.error .nameError) st1.b args kws).1 := by
  have hw : CtWorld (hdrEnv cfg types s) (libOwn s (hdrTypes s)) := lib_world hs hl
  obtain ⟨hbu, hfin⟩ := lib_build (ts := hdrTypes s) hs hl
  obtain ⟨hlk, hnm, hpar⟩ := func_fit hs hpb hf hg
  obtain ⟨ks, hr, hks⟩ := hi.reach
  have hlen : g.params.length = cs.length := by simpa using congrArg List.length hnm
  have hpl : PlainC g := by
    refine ⟨fun i j k h1 h2 => ?_, fun x hx => ?_⟩
    · obtain ⟨v, hv⟩ := (nameAt_cs hnm).1 h1
      obtain ⟨w, hw'⟩ := (nameAt_cs hnm).1 h2
      exact hf.names i j k v w hv hw'
    · obtain ⟨i, hi'⟩ := List.mem_iff_getElem?.1 hx
      obtain ⟨p, v, hp, _, hx2, _⟩ := hpar i x hi'
      rw [hx2]; exact hf.plain p hp
  have hfc : FairCall g args kws := by
    refine ⟨by omega, keys, fun k w hm => ?_⟩
    obtain ⟨x, hx', hk⟩ := known k w hm
    obtain ⟨i, hi'⟩ := List.mem_iff_getElem?.1 hx'
    obtain ⟨x1, x2⟩ := x
    simp only at hk; subst hk
    exact ⟨i, (nameAt_cs hnm).2 ⟨x2, hi'⟩⟩
  obtain ⟨l, f1, f2, f3, f4⟩ := filled hpl hfc
  obtain ⟨res, st2, c1, c2, c3⟩ := complete_right hw hbu hfin hT (f := g) (N := N) (n := n) hn
    (vs := fun i => (cs[i]?.map (·.2)).getD (.base [])) (gv := argFor cs args kws) (fun i x hx' => by
      obtain ⟨p, v, hp, hx1, _, hc, hfit, hag⟩ := hpar i x hx'
      refine ⟨by simpa [hc] using hfit, fun hnu => ?_⟩
      rcases again p hp with h | h
      · exact hag h
      · rcases hnu with hnu | hnu
        · exact ((h i v _ hc hnu).1 rfl).elim
        · exact ((h i v _ hc hnu).2 rfl).elim) l hr (i := 0) (by rw [Nat.zero_add, f2]) (fun j x hj => by
      have hlt : j < g.params.length := by rw [← f2]; exact (List.getElem?_eq_some_iff.1 hj).1
      obtain ⟨a1, a2⟩ := argFor_given hnm keys (args := args) j
      rw [Nat.zero_add]
      cases hw' : argFor cs args kws j with
      | some w => have := f3 j w (a1 w hw') hlt; rw [hj] at this; cases this; rfl
      | none => have := f4 j (a2 hw') hlt; rw [hj] at this; cases this; rfl)
  have hcall : callFunc (hdrEnv cfg types s) n g (.error .nameError) st1.b args kws = match res with
      | .error x => (.raised x, st2)
      | .ok (as, gs) => (.called as gs, st2) := by
    unfold callFunc prepare
    rw [f1]
    simp only [c1, hlk]
    cases res with
    | error x => rfl
    | ok a => rfl
  rw [hcall]
  have hinv := inv_after hi hks c2
  rcases c3 with ⟨as, gs, rfl, k1, k2, k3, k4⟩ | ⟨rfl, k, _, hk2, hk3⟩
  · refine ⟨hinv, c2.keeps, .called as gs (by rw [k1, f2, hlen]) ?_ k2 ?_⟩
    · intro i name v hc
      have hlt : i < l.length := by rw [f2, hlen]; exact (List.getElem?_eq_some_iff.1 hc).1
      obtain ⟨a, q1, q2⟩ := k3 i hlt
      refine ⟨a, q1, ?_⟩
      rw [Nat.zero_add] at q2
      simpa [hc] using q2
    · intro i
      rw [k4, f2, hlen]
      simp
  · have hlt : k < cs.length := by rw [← hlen, ← f2]; omega
    refine ⟨hinv, c2.keeps, .unfit k cs[k].1 cs[k].2 (List.getElem?_eq_getElem hlt) ?_⟩
    simpa [List.getElem?_eq_getElem hlt] using hk3

theorem use_right (hs : TablesWf cfg junk s) (hl : LibOk cfg types s) (hT : PtrTable types) {N n : Nat} (hb : Bound cfg types s false N)
    (hpb : ParBound cfg types s N) (hn : N ≤ n) {st : LState CtObj CtState} (hi : UseInv cfg types s exports st) {u : Use A}
    (hu : FairUse cfg types s u) :
    UseInv cfg types s exports (useLib (hdrEnv cfg types s) n (hdrLib cfg types s n exports false) st u).2 ∧
    Keeps st.b (useLib (hdrEnv cfg types s) n (hdrLib cfg types s n exports false) st u).2.b ∧
    UseRight cfg types s exports (useLib (hdrEnv cfg types s) n (hdrLib cfg types s n exports false) st u).2.b.structs u
      (useLib (hdrEnv cfg types s) n (hdrLib cfg types s n exports false) st u).1 := by
  have hw : CtWorld (hdrEnv cfg types s) (libOwn s (hdrTypes s)) := lib_world hs hl
  obtain ⟨hbu, hfin⟩ := lib_build (ts := hdrTypes s) hs hl
  cases hu with
  | look q hq =>
    obtain ⟨h1, h2, h3⟩ := look_right (exports := exports) hs hl hb hn hi.1 hq
    exact ⟨⟨h1, (look_from hi.2 q).1⟩, h2, .look q _ h3⟩
  | invoke f ps cs args kws hf few keys known again =>
    obtain ⟨res, st1, e1, e2, e3, e4, e5⟩ := getattr_func (exports := exports) hs hl hb hn hi.1 hi.2 hf
    simp only [useLib, e1]
    rcases e5 with ⟨hx, rfl⟩ | ⟨hx, g, rfl, hg, _⟩
    · exact ⟨⟨e2, e3⟩, e4, .hidden f args kws hx⟩
    · obtain ⟨c1, c2, c3⟩ := invoke_right hs hl hT hpb hn e2 hf hg few keys known again
      exact ⟨⟨c1, e3.objs, e3.all⟩, e4.trans c2, .invoke f ps cs args kws _ hx hf.decl c3⟩
  | argType f ps cs k hf hk again =>
    obtain ⟨res, st1, e1, e2, e3, e4, e5⟩ := getattr_func (exports := exports) hs hl hb hn hi.1 hi.2 hf
    simp only [useLib, e1]
    rcases e5 with ⟨hx, rfl⟩ | ⟨hx, g, rfl, hg, _⟩
    · exact ⟨⟨e2, e3⟩, e4, .hiddenType f k hx⟩
    · obtain ⟨hlk, hnm, hpar⟩ := func_fit hs hpb hf hg
      simp only
      obtain ⟨ks, hr, hks⟩ := e2.reach
      have hlen : g.params.length = cs.length := by simpa using congrArg List.length hnm
      have hsame : ∀ r, ArgTypeRight types st1.b.structs cs k r → argCType (hdrEnv cfg types s) n g st1.b k = (r, st1.b) →
          UseInv cfg types s exports { st1 with b := (argCType (hdrEnv cfg types s) n g st1.b k).2 } ∧
          Keeps st.b (argCType (hdrEnv cfg types s) n g st1.b k).2 ∧
          UseRight cfg types s exports (argCType (hdrEnv cfg types s) n g st1.b k).2.structs (.argType f k : Use A)
            (.typed (argCType (hdrEnv cfg types s) n g st1.b k).1) := by
        intro r h1 h2
        rw [h2]
        exact ⟨⟨e2, e3⟩, e4, .argType f ps cs k r hx hf.decl h1⟩
      have hask : ∀ i (hi' : i < cs.length), argCType (hdrEnv cfg types s) n g st1.b k = argCType.ask (hdrEnv cfg types s) n g st1.b i →
          (∀ S c, Mirrors types S c cs[i].2 → ArgTypeRight types S cs k (.ok c)) →
          UseInv cfg types s exports { st1 with b := (argCType (hdrEnv cfg types s) n g st1.b k).2 } ∧
          Keeps st.b (argCType (hdrEnv cfg types s) n g st1.b k).2 ∧
          UseRight cfg types s exports (argCType (hdrEnv cfg types s) n g st1.b k).2.structs (.argType f k : Use A)
            (.typed (argCType (hdrEnv cfg types s) n g st1.b k).1) := by
        intro i hi' h1 h2
        have hp : g.params[i]? = some (g.params[i]'(by omega)) := List.getElem?_eq_getElem _
        obtain ⟨p, v, hpm, _, _, hc, hfit, hag⟩ := hpar i _ hp
        obtain ⟨c, st2, q1, q2, q3⟩ := ask_shared hw hbu hfin hr (hag (again p hpm)) hfit.finite hfit.means hfit.build hfit.steady hn
        have : argCType (hdrEnv cfg types s) n g st1.b k = (.ok c, st2) := by
          rw [h1]; unfold argCType.ask; rw [hp]; exact q1
        rw [this]
        have hv : cs[i].2 = v := by
          rw [List.getElem?_eq_getElem hi'] at hc
          simp only [Option.some.injEq] at hc
          rw [hc]
        exact ⟨⟨inv_after e2 hks q2, ⟨e3.objs, e3.all⟩⟩, e4.trans q2.keeps, .argType f ps cs k _ hx hf.decl (h2 _ c (by rw [hv]; exact q3))⟩
      rcases hk with ⟨x, rfl⟩ | ⟨i, rfl⟩
      · cases ha : g.argIndex x with
        | none =>
          refine hsame (.error .keyError) (.unknown x (fun y hy he => ?_)) (by simp [argCType, ha])
          obtain ⟨i, hi'⟩ := List.mem_iff_getElem?.1 hy
          obtain ⟨y1, y2⟩ := y
          simp only at he; subst he
          obtain ⟨p, hp, hpk⟩ := (nameAt_cs hnm).2 ⟨y2, hi'⟩
          exact argIndex_none.1 ha p (List.mem_of_getElem? hp) hpk
        | some i =>
          obtain ⟨v, hv⟩ := (nameAt_cs hnm).1 (argIndex_name ha)
          have hlt := (List.getElem?_eq_some_iff.1 hv).1
          refine hask i hlt (by simp [argCType, ha]) (fun S c hm => .name i x v c hv ?_)
          rw [(List.getElem?_eq_some_iff.1 hv).2] at hm
          exact hm
      · by_cases hlt : i < cs.length
        · refine hask i hlt (by
            have : pyIndex g.params.length (i : Int) = some i := by
              unfold pyIndex; rw [if_pos (by omega), if_pos (by omega)]; simp
            simp only [argCType, this]) (fun S c hm => .index i cs[i].1 cs[i].2 c (List.getElem?_eq_getElem hlt) hm)
        · refine hsame (.error .indexError) (.range i (by omega)) ?_
          have : pyIndex g.params.length (i : Int) = none := by
            unfold pyIndex; rw [if_pos (by omega), if_neg (by omega)]
          simp only [argCType, this]

theorem uses_right (hs : TablesWf cfg junk s) (hl : LibOk cfg types s) (hT : PtrTable types) {N n : Nat} (hb : Bound cfg types s false N)
    (hpb : ParBound cfg types s N) (hn : N ≤ n) : ∀ (us : List (Use A)) {st : LState CtObj CtState}, UseInv cfg types s exports st →
    (∀ u ∈ us, FairUse cfg types s u) →
    UseInv cfg types s exports (useAll (hdrEnv cfg types s) n (hdrLib cfg types s n exports false) st us).2 ∧
    Keeps st.b (useAll (hdrEnv cfg types s) n (hdrLib cfg types s n exports false) st us).2.b ∧
    (useAll (hdrEnv cfg types s) n (hdrLib cfg types s n exports false) st us).1.length = us.length ∧
    ∀ (i : Nat) u r, us[i]? = some u → (useAll (hdrEnv cfg types s) n (hdrLib cfg types s n exports false) st us).1[i]? = some r →
      UseRight cfg types s exports (useAll (hdrEnv cfg types s) n (hdrLib cfg types s n exports false) st us).2.b.structs u r := by
  intro us
  induction us with
  | nil => intro st hi _; exact ⟨hi, .refl _, rfl, by simp⟩
  | cons u us ih =>
    intro st hi hu
    obtain ⟨h1, h2, h3⟩ := use_right hs hl hT hb hpb hn hi (hu u (by simp))
    obtain ⟨g1, g2, g3, g4⟩ := ih h1 (fun u' h => hu u' (by simp [h]))
    refine ⟨g1, h2.trans g2, by simp [useAll, g3], fun i u' r hi hr => ?_⟩
    cases i with
    | zero => simp [useAll] at hi hr; subst hi hr; exact useRight_mono g2 h3
    | succ i => exact g4 i u' r (by simpa using hi) (by simpa [useAll] using hr)

theorem use_bound (hs : TablesWf cfg junk s) (hl : LibOk cfg types s) : ∃ N, Bound cfg types s false N ∧ ParBound cfg types s N := by
  obtain ⟨N, hb⟩ := bound_exists hs hl false
  obtain ⟨M, hp⟩ := parBound_exists hs hl
  refine ⟨max N M, ⟨by have := hb.pos; omega, fun f r ps q h1 h2 => (hb.fns f r ps q h1 h2).mono (by omega),
    fun x t h1 h2 h3 => (hb.tys x t h1 h2 h3).mono (by omega), fun u tag h n st hn => hb.tags u tag h n st (by omega)⟩,
    fun f r ps q h1 h2 p h3 => (hp f r ps q h1 h2 p h3).mono (by omega)⟩

/-- C74 (partial: `LibOk`, fair uses): in any sequence of lookups, calls and questions for argument types on the library of a
header, every outcome is right.  A call reaches the C function with one right argument per parameter: the object given; for `None`
an object whose class mirrors the C type of the parameter; for an omitted argument a new object of the right class, and
its index is among the generated ones.  Or it raises `TypeError`, because some argument cannot be passed: `None` for a plain
value, or nothing for a parameter that is not a one- or two-level pointer.  What was done before does not matter. -/
theorem C74_session_partial (hs : TablesWf cfg junk s) (hl : LibOk cfg types s) (hT : PtrTable types) (exports : Str → Bool) :
    ∃ N, ∀ n, N ≤ n → ∀ us : List (Use A), (∀ u ∈ us, FairUse cfg types s u) →
      (useAll (hdrEnv cfg types s) n (hdrLib cfg types s n exports false) (hdrStart s) us).1.length = us.length ∧
      ∀ (i : Nat) u r, us[i]? = some u →
        (useAll (hdrEnv cfg types s) n (hdrLib cfg types s n exports false) (hdrStart s) us).1[i]? = some r →
        UseRight cfg types s exports (useAll (hdrEnv cfg types s) n (hdrLib cfg types s n exports false) (hdrStart s) us).2.b.structs u r := by
  obtain ⟨N, hb, hp⟩ := use_bound hs hl
  exact ⟨N, fun n hn us hu => (uses_right hs hl hT hb hp hn us ⟨start_inv, ⟨by simp [hdrStart, LState.init], by simp [hdrStart, LState.init]⟩⟩ hu).2.2⟩

end

/-- C74 (partial: as `C74_session_partial`), for a list of header files. -/
theorem C74_files_partial {A : Type} (w : Setup) (he : ExtraWords w.cfg) (fs : List (Str × Str)) (s : Store DefVal)
    (h : processFiles w Store.empty fs = .ok s) (types : Dict Str Str) (hl : LibOk w.cfg types s) (hT : PtrTable types) (exports : Str → Bool) :
    ∃ N, ∀ n, N ≤ n → ∀ us : List (Use A), (∀ u ∈ us, FairUse w.cfg types s u) →
      (useAll (hdrEnv w.cfg types s) n (hdrLib w.cfg types s n exports false) (hdrStart s) us).1.length = us.length ∧
      ∀ (i : Nat) u r, us[i]? = some u →
        (useAll (hdrEnv w.cfg types s) n (hdrLib w.cfg types s n exports false) (hdrStart s) us).1[i]? = some r →
        UseRight w.cfg types s exports (useAll (hdrEnv w.cfg types s) n (hdrLib w.cfg types s n exports false) (hdrStart s) us).2.b.structs u r :=
  C74_session_partial (C69_files w he fs _ s (C69_empty _ _) h) hl hT exports

/-! ### Example -/

attribute [local irreducible] clStore

theorem clFairFn : FairFn exSetup.cfg ctypesTable clStore c%"visit" clParams clCs :=
  ⟨⟨⟨_, _, clVisit⟩, clParamsOk⟩, fun k _ => clUsable k _, clNoValue, by simp [clParams], by
    intro i j k v w hi hj
    rcases i with _ | _ | _ | _ | i <;> simp [clCs] at hi <;> obtain ⟨rfl, _⟩ := hi <;>
      rcases j with _ | _ | _ | _ | j <;> simp [clCs] at hj <;> rfl⟩

theorem clAgain : ∀ p ∈ clParams, AskAgain exSetup.cfg clStore p.2.1 := by
  intro p hp
  simp only [clParams, List.mem_cons, List.not_mem_nil, or_false] at hp
  rcases hp with rfl | rfl | rfl | rfl <;> exact ⟨by simp [ctTy, ctPtr], clShape rfl, by simp [ctTy, ctPtr]⟩

/-- C74 on a header text: whatever (fair) use was made of the library before, `lib.visit(5, None, n=7)` calls the C function
with 5, a NULL whose class mirrors `cb_t`, a new object for `char **msg`, and 7; the argument number 2 is the
generated one. -/
theorem C74_example : processFiles exSetup Store.empty [(c%"t.h", clText)] = .ok clStore ∧
    ∃ N, ∀ n, N ≤ n → ∀ us : List (Use Nat), (∀ u ∈ us, FairUse exSetup.cfg ctypesTable clStore u) →
      let r := useAll (hdrEnv exSetup.cfg ctypesTable clStore) n (hdrLib exSetup.cfg ctypesTable clStore n (fun _ => true) false)
        (hdrStart clStore) (us ++ [.invoke c%"visit" [.obj 5, .none] [(c%"n", .obj 7)]])
      ∃ c1 c2, r.1[us.length]? = some (.invoked (.called [.obj 5, .nul c1, .auto c2, .obj 7] [2])) ∧
        Mirrors ctypesTable r.2.b.structs c1 (.ptr (.fn [(none, .ptr (.base c%"struct node")), (none, .ptr (.base c%"char"))] (.base c%"int"))) ∧
        AutoOk ctypesTable r.2.b.structs c2 (.ptr (.ptr (.base c%"char"))) := by
  refine ⟨clFiles, ?_⟩
  obtain ⟨N, h⟩ := C74_files_partial (A := Nat) exSetup (by simp [ExtraWords, exSetup]) _ _ clFiles ctypesTable clLib ptrTable_ctypes (fun _ => true)
  refine ⟨N, fun n hn us hu => ?_⟩
  intro r
  obtain ⟨hlen, hall⟩ := h n hn (us ++ [.invoke c%"visit" [.obj 5, .none] [(c%"n", .obj 7)]]) (by
    intro u hm
    rcases List.mem_append.1 hm with hm | hm
    · exact hu u hm
    · simp only [List.mem_singleton] at hm
      subst hm
      exact .invoke _ clParams clCs _ _ clFairFn (by simp [clCs]) (by simp)
        (by intro k w hk; simp at hk; exact ⟨_, List.mem_of_getElem? (i := 3) rfl, by rw [hk.1]⟩) (fun p hp => .inl (clAgain p hp)))
  have hlt : us.length < r.1.length := by show us.length < List.length _; rw [hlen]; simp
  have hr := hall us.length (.invoke c%"visit" [.obj 5, .none] [(c%"n", .obj 7)]) _ (by simp) (List.getElem?_eq_getElem hlt)
  rw [List.getElem?_eq_getElem hlt]
  change UseRight _ _ _ _ r.2.b.structs _ r.1[us.length] at hr
  generalize r.1[us.length] = res at hr
  cases hr with
  | hidden _ _ _ h => cases h
  | invoke f ps cs args kws o hx hd h =>
    obtain ⟨⟨r', q, h1⟩, h2⟩ := hd
    rw [clVisit] at h1
    cases h1
    cases params_unique h2 clParamsOk
    cases h with
    | called as gs hl ha ho hg =>
      obtain ⟨a0, b0, d0⟩ := ha 0 _ _ rfl
      obtain ⟨a1, b1, d1⟩ := ha 1 _ _ rfl
      obtain ⟨a2, b2, d2⟩ := ha 2 _ _ rfl
      obtain ⟨a3, b3, d3⟩ := ha 3 _ _ rfl
      have e0 : argFor clCs ([.obj 5, .none] : List (PyArg Nat)) [(c%"n", .obj 7)] 0 = some (.obj 5) := rfl
      have e1 : argFor clCs ([.obj 5, .none] : List (PyArg Nat)) [(c%"n", .obj 7)] 1 = some .none := rfl
      have e2 : argFor clCs ([.obj 5, .none] : List (PyArg Nat)) [(c%"n", .obj 7)] 2 = none := rfl
      have e3 : argFor clCs ([.obj 5, .none] : List (PyArg Nat)) [(c%"n", .obj 7)] 3 = some (.obj 7) := rfl
      rw [e0] at d0
      rw [e1] at d1
      rw [e2] at d2
      rw [e3] at d3
      have hgs : gs = [2] := by
        have key : ∀ i, i ∈ gs ↔ i = 2 := by
          intro i
          rw [hg]
          constructor
          · rintro ⟨hi, hn⟩
            rcases i with _ | _ | _ | _ | i
            · rw [e0] at hn; cases hn
            · rw [e1] at hn; cases hn
            · rfl
            · rw [e3] at hn; cases hn
            · simp [clCs] at hi; omega
          · rintro rfl; exact ⟨by decide, e2⟩
        rcases gs with _ | ⟨g0, _ | ⟨g1, gs⟩⟩
        · exact absurd ((key 2).2 rfl) (by simp)
        · rw [(key g0).1 (by simp)]
        · have p := (key g0).1 (by simp)
          have q := (key g1).1 (by simp)
          simp at ho
          omega
      subst hgs
      have f0 : a0 = .obj 5 := by cases d0 with
        | obj => rfl
        | nul w c hw => rcases hw with hw | hw <;> cases hw
      have f3 : a3 = .obj 7 := by cases d3 with
        | obj => rfl
        | nul w c hw => rcases hw with hw | hw <;> cases hw
      subst f0 f3
      cases d1 with
      | nul w c1 hw hv hm =>
        cases d2 with
        | auto c2 hv2 hm2 =>
          refine ⟨c1, c2, ?_, hm, hm2⟩
          rcases as with _ | ⟨x0, _ | ⟨x1, _ | ⟨x2, _ | ⟨x3, _ | ⟨x4, as⟩⟩⟩⟩⟩ <;> simp [clCs] at hl
          simp at b0 b1 b2 b3
          subst b0 b1 b2 b3
          rfl
    | unfit i name v hi hb =>
      exfalso
      rcases i with _ | _ | _ | _ | i <;> simp [clCs] at hi
      all_goals (obtain ⟨rfl, rfl⟩ := hi)
      · have e0 : argFor clCs ([.obj 5, .none] : List (PyArg Nat)) [(c%"n", .obj 7)] 0 = some (.obj 5) := rfl
        rw [e0] at hb
        cases hb with
        | null w b hw hv => cases hv
      · have e1 : argFor clCs ([.obj 5, .none] : List (PyArg Nat)) [(c%"n", .obj 7)] 1 = some .none := rfl
        rw [e1] at hb
        cases hb with
        | null w b hw hv => cases hv
      · have e2 : argFor clCs ([.obj 5, .none] : List (PyArg Nat)) [(c%"n", .obj 7)] 2 = none := rfl
        rw [e2] at hb
        cases hb with
        | missing hv => exact hv ⟨_, .inr rfl⟩
      · have e3 : argFor clCs ([.obj 5, .none] : List (PyArg Nat)) [(c%"n", .obj 7)] 3 = some (.obj 7) := rfl
        rw [e3] at hb
        cases hb with
        | null w b hw hv => rcases hw with hw | hw <;> cases hw

/-- C74 fails for array parameters: for `int f(int a[2][3])`, `lib.f.arg_c_type('a')` is not the class in `argtypes`, because
asking for the class changes the definition (C48). -/
theorem C74_counterexample_argtype : ∃ g st1 c1 c2,
    initFunc (cxEnv [] []) 5 exStart (ctTy c%"int" []) [(some c%"a", ctTy c%"int" [ctArr 1, ctArr 2], none)] false = (.ok g, st1) ∧
    g.argTypes = [c1] ∧ (argCType (cxEnv [] []) 5 g st1 (.str c%"a")).1 = .ok c2 ∧ c1 ≠ c2 :=
  ⟨_, _, _, _, rfl, rfl, rfl, by simp⟩

end Pyclib
