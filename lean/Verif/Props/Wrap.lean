import Verif.Proof.Wrap
import Verif.Props.Classes
/-!
C72: functions of a header as Python sees them: classes of the result and the parameters, and of the objects
made for arguments that are omitted or `None`.

Full statement: every function of every C header can be wrapped, its `argtypes` and `restype` mirror the
declared C types, and every argument made by the library has the class of its parameter.  Proved under the
conditions of C70; for `char *`, `wchar_t *` and `void *` the last part is false (`C72_counterexample_char`).
-/
namespace Pyclib
open Spec

theorem NumMods.mem_plain {dim : Int → Option Int} {a a' : List CMod} (h : NumMods dim a a') :
    (∀ s, .sym s ∈ a' → .sym s ∈ a) ∧ ((∀ d, .arr d ∉ a) → ∀ d, .arr d ∉ a') := by
  induction a generalizing a' with
  | nil => cases h; simp
  | cons m a ih =>
    cases h with
    | sym s _ _ h => have := ih h; grind
    | arr i _ _ h => have := ih h; grind
    | fn ps ps' _ _ hp h => have := ih h; grind

section
variable {cfg : Cfg} {junk : Str → Str} {types : Dict Str Str} {s : Store DefVal} {ts : List CType}

/-- The parameters of the function whose result is type number `k`, numbered. -/
def libFn (s : Store DefVal) (ts : List CType) (k : Nat) (ps : List Param) : List Param :=
  ps.zipWith (fun p t => (p.1, t, p.2.2)) ((lib s ts).2.1.drop (k + 1))

theorem top_ok {k : Nat} {t : CType} (ht : ts[k]? = some t) (hd : DeepArr t) :
    ∃ t', (lib s ts).2.1[k]? = some t' ∧ TypeOk (lib s ts).2.2 (.top k) t t' := by
  obtain ⟨t', h1, h2⟩ := (numTops_ok .top ts 0 _).2 _ (List.prefix_refl _) k t ht
  exact ⟨t', h1, by have := h2 hd; rw [Nat.zero_add] at this; exact this⟩

theorem wrappable (hs : TablesWf cfg junk s) {k : Nat} {t t' : CType} {v : CTy} (hw : TypeWf (TypeName cfg junk s) t)
    (ht : TypeOk (lib s ts).2.2 (.top k) t t') (h : AskOk cfg types s t v) :
    Wrappable (libEnv cfg types s ts) (libOwn s ts) (libDim s ts) k t' v :=
  ⟨typeOk_ty hs ht hw false (by simp) h.shapes,
    num_finite (e := ⟨cfg, s.defs, types⟩) (e' := libEnv cfg types s ts) rfl (lib_tm hs) h.finite ht.num,
    lib_means hs ht (typeWf_deep hw) h.means, buildable_mono (fun u tag => lib_known hs u tag) h.build⟩

theorem void_iff (p : Param) : isVoidParam p = true ↔ VoidParam p := by
  simp [isVoidParam, VoidParam]

theorem void_num {dim : Int → Option Int} {n : Option Str} {t t' : CType} {d : Option Str} (h : Num dim t t') :
    isVoidParam (n, t', d) = isVoidParam (n, t, d) := by
  have hl := h.mods.len
  unfold isVoidParam
  simp only [h.spec]
  congr 1
  cases h1 : t.mods <;> cases h2 : t'.mods <;> simp [h1, h2] at hl ⊢

theorem wrapParams_lib (hs : TablesWf cfg junk s) {ps : List Param} {cs : List (Option Str × CTy)}
    (h : ParamsOk cfg types s ps cs) (hw : ∀ p ∈ ps, TypeWf (TypeName cfg junk s) p.2.1) : ∀ (k : Nat),
    (ps.map (·.2.1)) <+: ts.drop (k + 1) →
    ∃ ls, WrapParams (libEnv cfg types s ts) (libOwn s ts) (libDim s ts) ls ((libFn s ts k ps).filter (fun p => !isVoidParam p)) cs ∧
      ls.Nodup ∧ ∀ j ∈ ls, k < j ∧ j ≤ k + ps.length := by
  induction h with
  | nil => intro k _; exact ⟨[], by simpa [libFn] using WrapParams.nil, by simp, by simp⟩
  | void p ps cs hp hps ih =>
    intro k hpre
    have h0 : ts[k + 1]? = some p.2.1 := by
      obtain ⟨t, ht⟩ := hpre
      have := congrArg (fun l => l[0]?) ht
      simpa using this.symm
    have hpre' : ps.map (·.2.1) <+: ts.drop (k + 1 + 1) := by
      obtain ⟨t, ht⟩ := hpre
      refine ⟨t, ?_⟩
      have := congrArg List.tail ht
      simpa using this
    obtain ⟨ls, h1, h2, h3⟩ := ih (fun q hq => hw q (by simp [hq])) (k + 1) hpre'
    obtain ⟨t', h4, h5⟩ := top_ok (s := s) h0 (typeWf_deep (hw p (by simp))).arr
    refine ⟨ls, ?_, h2, fun j hj => by have := h3 j hj; simp; omega⟩
    have hd : (lib s ts).2.1.drop (k + 1) = t' :: (lib s ts).2.1.drop (k + 1 + 1) := by
      obtain ⟨hlt, he⟩ := List.getElem?_eq_some_iff.1 h4
      rw [List.drop_eq_getElem_cons hlt, he]
    have : libFn s ts k (p :: ps) = (p.1, t', p.2.2) :: libFn s ts (k + 1) ps := by
      unfold libFn; rw [hd]; rfl
    rw [this, List.filter_cons, void_num h5.num, (void_iff (p.1, p.2.1, p.2.2)).2 hp]
    exact h1
  | cons p ps v cs hp ha hv hps ih =>
    intro k hpre
    have h0 : ts[k + 1]? = some p.2.1 := by
      obtain ⟨t, ht⟩ := hpre
      have := congrArg (fun l => l[0]?) ht
      simpa using this.symm
    have hpre' : ps.map (·.2.1) <+: ts.drop (k + 1 + 1) := by
      obtain ⟨t, ht⟩ := hpre
      refine ⟨t, ?_⟩
      have := congrArg List.tail ht
      simpa using this
    obtain ⟨ls, h1, h2, h3⟩ := ih (fun q hq => hw q (by simp [hq])) (k + 1) hpre'
    obtain ⟨t', h4, h5⟩ := top_ok (s := s) h0 (typeWf_deep (hw p (by simp))).arr
    refine ⟨(k + 1) :: ls, ?_, List.nodup_cons.2 ⟨fun hm => by have := h3 _ hm; omega, h2⟩, fun j hj => ?_⟩
    · have hd : (lib s ts).2.1.drop (k + 1) = t' :: (lib s ts).2.1.drop (k + 1 + 1) := by
        obtain ⟨hlt, he⟩ := List.getElem?_eq_some_iff.1 h4
        rw [List.drop_eq_getElem_cons hlt, he]
      have : libFn s ts k (p :: ps) = (p.1, t', p.2.2) :: libFn s ts (k + 1) ps := by
        unfold libFn; rw [hd]; rfl
      rw [this, List.filter_cons, void_num h5.num]
      have hnv : isVoidParam (p.1, p.2.1, p.2.2) = false := by
        rw [Bool.eq_false_iff]; exact fun e => hp ((void_iff _).1 e)
      rw [hnv]
      exact .cons (k + 1) ls (p.1, t', p.2.2) _ v cs (wrappable hs (hw p (by simp)) h5 ha) hv h1
    · rcases List.mem_cons.1 hj with rfl | hj
      · simp
      · have := h3 j hj; simp; omega

theorem wrapParams_names {e : CtEnv} {own : Int → Owner} {dim : Int → Option Int} {ls : List Nat} {ps : List Param}
    {cs : List (Option Str × CTy)} (h : WrapParams e own dim ls ps cs) : ps.map (·.1) = cs.map (·.1) := by
  induction h with
  | nil => rfl
  | cons k ks p ps v cs _ _ _ ih => simp [ih]

/-- C72 (partial: `LibOk`, `AskOk`, no calling convention): a function of the header can be wrapped; the wrapper
has the declared parameters without `void`, in order and with their names; `restype` mirrors the C type of
the result, and `argtypes` the C types of the parameters. -/
theorem C72_wrap_partial (hs : TablesWf cfg junk s) (hl : LibOk cfg types s) (f : Str) (r : CType) (ps : List Param) (qs : List Qual)
    (hf : dget (s.defs .functions) f = some (.func (.func r ps qs))) (k : Nat) (hts : (r :: ps.map (·.2.1)) <+: ts.drop k)
    (u : CTy) (hr : AskOk cfg types s r u) (hcv : NoConv r) (cs : List (Option Str × CTy)) (hps : ParamsOk cfg types s ps cs)
    (ks : List Nat) (st : CtState) (hst : CtReach (libEnv cfg types s ts) (libOwn s ts) (libDim s ts) ks st)
    (hfree : ∀ j, k ≤ j → j ≤ k + ps.length → j ∉ ks) (lock : Bool) :
    ∃ r', (lib s ts).2.1[k]? = some r' ∧ ∃ N g st' ks',
      (∀ n, N ≤ n → initFunc (libEnv cfg types s ts) n st r' (libFn s ts k ps) lock = (.ok g, st')) ∧
      CtReach (libEnv cfg types s ts) (libOwn s ts) (libDim s ts) ks' st' ∧
      (∀ j ∈ ks', j ∈ ks ∨ k ≤ j ∧ j ≤ k + ps.length) ∧
      g.params.map (·.1) = cs.map (·.1) ∧ g.lockCall = lock ∧
      Mirrors types st'.structs g.resType u ∧ MirrorsArgs types st'.structs g.argTypes cs := by
  have h0 : ts[k]? = some r := by
    obtain ⟨t, ht⟩ := hts
    have := congrArg (fun l => l[0]?) ht
    simpa using this.symm
  have hpre : ps.map (·.2.1) <+: ts.drop (k + 1) := by
    obtain ⟨t, ht⟩ := hts
    refine ⟨t, ?_⟩
    have := congrArg List.tail ht
    simpa using this
  have hwr := asked_wf hs (.result f r ps qs hf)
  obtain ⟨r', h1, h2⟩ := top_ok (s := s) h0 (typeWf_deep hwr).arr
  obtain ⟨ls, h3, h4, h5⟩ := wrapParams_lib hs hps (fun p hp => asked_wf hs (.param f r ps qs p hf hp)) k hpre
  obtain ⟨hbu, hfin⟩ := lib_build (ts := ts) hs hl
  have hcv' : hasConv r' = false := by
    apply hasConv_false
    intro c hc
    obtain ⟨a, b⟩ := hcv c hc
    refine ⟨by rw [h2.num.spec]; exact a, fun hm => b ?_⟩
    exact h2.num.mods.mem_plain.1 _ hm
  obtain ⟨N, c, cl, st', w1, w2, w3, w4⟩ := wrap_ok (lib_world hs hl) hbu hfin hst (wrappable hs hwr h2 hr) hcv' h3
    (List.nodup_cons.2 ⟨fun hm => by have := h5 _ hm; omega, h4⟩) (fun j hj => by
      rcases List.mem_cons.1 hj with rfl | hj
      · exact hfree j (by omega) (by omega)
      · have := h5 j hj; exact hfree j (by omega) (by omega)) lock
  refine ⟨r', h1, N, _, st', _, w1, w2, fun j hj => ?_, wrapParams_names h3, rfl, w3, w4⟩
  simp only [List.mem_append, List.mem_reverse, List.mem_cons] at hj
  rcases hj with hj | rfl | hj
  · have := h5 j hj; exact .inr ⟨by omega, by omega⟩
  · exact .inr ⟨by omega, by omega⟩
  · exact .inl hj

/-- `None` may be given for the parameter any number of times: its declared type has no array brackets, and the
typedefs in it have no neighbouring ones. -/
def NullOk (cfg : Cfg) (s : Store DefVal) (p : Param) : Prop := (∀ d, .arr d ∉ p.2.1.mods) ∧ ShapesOk cfg s true p.2.1

theorem wrapParams_get {e : CtEnv} {own : Int → Owner} {dim : Int → Option Int} {ls : List Nat} {ps : List Param}
    {cs : List (Option Str × CTy)} (h : WrapParams e own dim ls ps cs) :
    ∀ (i : Nat) (p : Param), ps[i]? = some p → ∃ k v, cs[i]? = some (p.1, v) ∧ Wrappable e own dim k p.2.1 v := by
  induction h with
  | nil => simp
  | cons k ks p ps v cs h _ _ ih =>
    intro i q hq
    cases i with
    | zero => simp at hq; subst hq; exact ⟨k, v, rfl, h⟩
    | succ i => simpa using ih i q (by simpa using hq)

theorem libFn_get {ps : List Param} (hw : ∀ p ∈ ps, DeepArr p.2.1) {k : Nat} (hts : ps.map (·.2.1) <+: ts.drop (k + 1)) (q : Param)
    (hq : q ∈ libFn s ts k ps) : ∃ p t', p ∈ ps ∧ q = (p.1, t', p.2.2) ∧ ∃ j, TypeOk (lib s ts).2.2 (.top j) p.2.1 t' := by
  obtain ⟨i, hi⟩ := List.mem_iff_getElem?.1 hq
  simp only [libFn, List.getElem?_zipWith] at hi
  cases hp : ps[i]? with
  | none => simp [hp] at hi
  | some p =>
    have h0 : ts[k + 1 + i]? = some p.2.1 := by
      obtain ⟨t, ht⟩ := hts
      have := congrArg (fun l => l[i]?) ht
      rw [List.getElem?_append_left (by simpa using (List.getElem?_eq_some_iff.1 hp).1)] at this
      simpa [hp] using this.symm
    obtain ⟨t', h1, h2⟩ := top_ok (s := s) h0 (hw p (List.mem_of_getElem? hp))
    simp only [hp, List.getElem?_drop, h1] at hi
    exact ⟨p, t', List.mem_of_getElem? hp, by simpa using hi.symm, _, h2⟩

variable {A : Type}

/-- C72 (partial: as `C72_wrap_partial`, and the calls of C42): the function was wrapped, and is called in any
state the backend can be in.  If the C function is reached, then for each parameter: the object given is
passed on; `None` is passed as an object whose class mirrors the C type of the parameter; for an omitted
argument a new object is passed, of a class as in `AutoOk`. -/
theorem C72_call_partial (hs : TablesWf cfg junk s) (hl : LibOk cfg types s) (hT : PtrTable types)
    (f : Str) (r : CType) (ps : List Param) (qs : List Qual)
    (hf : dget (s.defs .functions) f = some (.func (.func r ps qs))) (k : Nat) (hts : (r :: ps.map (·.2.1)) <+: ts.drop k)
    (cs : List (Option Str × CTy)) (hps : ParamsOk cfg types s ps cs) (n : Nat) (r' : CType) (lock : Bool) (st0 st1 : CtState) (g : CFunc)
    (hg : initFunc (libEnv cfg types s ts) n st0 r' (libFn s ts k ps) lock = (.ok g, st1)) (hpl : PlainC g)
    (ks : List Nat) (st st' : CtState) (hst : CtReach (libEnv cfg types s ts) (libOwn s ts) (libDim s ts) ks st)
    (n' : Nat) (found : Except PyErr Unit) (args : List (PyArg A)) (kws : List (Str × PyArg A)) (hc : FairCall g args kws)
    (hnull : ∀ p ∈ ps, NullOk cfg s p ∨ ∀ i q w, g.params[i]? = some q → q.1 = p.1 → Given g args kws i w → w ≠ .none ∧ w ≠ .null)
    (as : List (Passed A)) (gs : List Nat)
    (h : callFunc (libEnv cfg types s ts) n' g found st args kws = (.called as gs, st')) :
    CtReach (libEnv cfg types s ts) (libOwn s ts) (libDim s ts) ks st' ∧ as.length = cs.length ∧
    ∀ i name v, cs[i]? = some (name, v) → (∃ q, g.params[i]? = some q ∧ q.1 = name) ∧
      (∀ a, Given g args kws i (.obj a) → as[i]? = some (.obj a)) ∧
      (∀ w, w = .none ∨ w = .null → Given g args kws i w → ∃ c, as[i]? = some (.nul c) ∧ Mirrors types st'.structs c v) ∧
      (Omitted g args kws i → i ∈ gs ∧ ∃ c, as[i]? = some (.auto c) ∧ AutoOk types st'.structs c v) := by
  have hpre : ps.map (·.2.1) <+: ts.drop (k + 1) := by
    obtain ⟨t, ht⟩ := hts
    refine ⟨t, ?_⟩
    have := congrArg List.tail ht
    simpa using this
  have hwf : ∀ p ∈ ps, TypeWf (TypeName cfg junk s) p.2.1 := fun p hp => asked_wf hs (.param f r ps qs p hf hp)
  obtain ⟨ls, h3, _, _⟩ := wrapParams_lib hs hps hwf k hpre
  have hgp : g.params = (libFn s ts k ps).filter (fun p => !isVoidParam p) := by
    unfold initFunc at hg
    simp only at hg
    split at hg
    · simp at hg
    · split at hg
      · simp at hg
      · split at hg
        · simp at hg
        · split at hg
          · simp at hg
          · simp at hg; rw [← hg.1]
  rw [← hgp] at h3
  obtain ⟨e1, e2, e3, e4, e5⟩ := C42_exact _ _ g hpl found st st' args kws hc as gs h
  have hlen : cs.length = g.params.length := by
    have := congrArg List.length (wrapParams_names h3)
    simpa using this.symm
  obtain ⟨l, f1, f2, f3, f4⟩ := filled hpl hc
  unfold callFunc prepare at h
  rw [f1] at h
  simp only at h
  cases hcm : complete (libEnv cfg types s ts) n' g st 0 l with
  | mk x st2 =>
    rw [hcm] at h
    cases x with
    | error y => simp at h
    | ok ag =>
      obtain ⟨as', gs'⟩ := ag
      simp only at h
      split at h
      · simp at h
      · simp only [Prod.mk.injEq, CallOut.called.injEq] at h
        obtain ⟨⟨rfl, rfl⟩, rfl⟩ := h
        obtain ⟨c1, _, c3⟩ := complete_types (lib_world hs hl) hT (f := g) (fun q hq => by
            obtain ⟨i, hi⟩ := List.mem_iff_getElem?.1 hq
            obtain ⟨j, v, _, hw⟩ := wrapParams_get h3 i q hi
            exact ⟨_, hw.ok⟩) l hst (fun j q hj hq => by
            rw [Nat.zero_add] at hq
            have hql : q ∈ libFn s ts k ps := by
              have := List.mem_of_getElem? hq
              rw [hgp] at this
              exact (List.mem_filter.1 this).1
            obtain ⟨p, t', hp, rfl, j', htk⟩ := libFn_get (fun p hp => (typeWf_deep (hwf p hp)).arr) hpre q hql
            rcases hnull p hp with hn | hn
            · refine typeOk_ty hs (o := .shared) (t := p.2.1) ⟨htk.num, htk.nodup, fun i hi => ?_, htk.inside⟩ (hwf p hp) true (fun _ => rfl) hn.2
              simp only [idsOf, List.mem_filterMap] at hi
              obtain ⟨m, hm, he⟩ := hi
              cases m with
              | arr d => exact ((htk.num.mods.mem_plain.2 hn.1) d hm).elim
              | sym s => simp at he
              | fn ps => simp at he
            · exfalso
              rcases given_or_omitted g args kws j with ⟨w, hw⟩ | ho
              · have := f3 j w hw (by have := (List.getElem?_eq_some_iff.1 hq).1; exact this)
                rw [hj] at this
                have hne := hn j _ w hq rfl hw
                cases w with
                | none => exact hne.1 rfl
                | null => exact hne.2 rfl
                | obj a => simp [PyArg.slot] at this
              · have := f4 j ho (List.getElem?_eq_some_iff.1 hq).1
                rw [hj] at this; simp at this) hcm
        refine ⟨c1, by rw [e1, hlen], fun i name v hcs => ?_⟩
        have hi : i < g.params.length := by rw [← hlen]; exact (List.getElem?_eq_some_iff.1 hcs).1
        have hq : g.params[i]? = some g.params[i] := List.getElem?_eq_getElem hi
        obtain ⟨j, v', w1, w2⟩ := wrapParams_get h3 i _ hq
        rw [hcs] at w1
        cases w1
        refine ⟨⟨_, hq, rfl⟩, fun a ha => e5 i a hi ha, fun w hw hgv => ?_, fun ho => ⟨(e3 i).2 ⟨hi, ho⟩, ?_⟩⟩
        · have hsl := f3 i w hgv hi
          rw [show w.slot = Slot.null from by rcases hw with rfl | rfl <;> rfl] at hsl
          exact (c3 i _ _ v hsl (by rw [Nat.zero_add]; exact hq) w2.means).1 rfl
        · exact (c3 i _ _ v (f4 i ho hi) (by rw [Nat.zero_add]; exact hq) w2.means).2 rfl

end

/-! ### From the text -/

theorem denMods_fn {ps : List Param} {cs : List (Option Str × CTy)} (hp : DenParams ps cs) :
    {t : CTy} → {ms : List CMod} → {u : CTy} → DenMods t ms u → DenMods t (ms ++ [.fn ps]) (.fn cs u)
  | _, _, _, .nil t => .fn ps cs t [] _ hp (.nil _)
  | _, _, _, .ptr t ms u h => .ptr _ _ _ (denMods_fn hp h)
  | _, _, _, .ref t ms u h => .ref _ _ _ (denMods_fn hp h)
  | _, _, _, .conv c t ms u hc h => .conv c _ _ _ hc (denMods_fn hp h)
  | _, _, _, .arrs n ns t ms u hm h => by
    rw [List.append_assoc]
    refine .arrs n ns t _ _ (fun l e => ?_) (denMods_fn hp h)
    cases ms with
    | nil => simp at e
    | cons m ms => exact hm l (by simpa using e)
  | _, _, _, .fn qs ds t ms u hq h => .fn qs ds t _ _ hq (denMods_fn hp h)

/-- What `add_compatibility_hack` splits off. -/
theorem addHack_func {t r : CType} {ps : List Param} {qs : List Qual} (h : addHack t = .ok (.func r ps qs)) :
    t.spec = r.spec ∧ t.mods = r.mods ++ [.fn ps] := by
  unfold addHack at h
  split at h
  · rename_i ps' hl
    have hmods : t.mods = t.mods.dropLast ++ [.fn ps'] := by
      obtain ⟨l, e⟩ := List.getLast?_eq_some_iff.1 hl
      rw [e]; simp
    cases hr : mkType t.spec t.mods.dropLast (some t.quals.dropLast) with
    | error x => simp [hr, bind, Except.bind] at h
    | ok r0 =>
      simp only [hr, bind, Except.bind] at h
      have hr0 : r0.spec = t.spec ∧ r0.mods = t.mods.dropLast := by
        refine ⟨mkType_spec hr, ?_⟩
        unfold mkType at hr
        simp only at hr
        split at hr
        all_goals (split at hr <;> simp at hr; rw [← hr])
      split at h
      · simp only [Except.ok.injEq, HType.func.injEq] at h
        obtain ⟨rfl, rfl, _⟩ := h
        exact ⟨hr0.1.symm, by rw [hr0.2]; exact hmods⟩
      · simp at h
  · simp at h

/-- C72 with C61 (partial: the declarators of C61, and as `C72_wrap_partial`): the last declaration of a header
declares a function.  It is recorded with types that denote the result and the parameters of the C type the
text gives to it, and wrapping it gives classes for these. -/
theorem C72_declaration_partial {g : Gram} (hg : gramOk g = true) (he : ExtraWords g.cfg) {tail text : Str} {s s0 s1 s2 : St}
    (hs : TablesWf g.cfg g.junk s) {pre st t d i : List Tk} {semi : Tk} {tq : List Str} {tn : Str} {dc : Decl} {ini : Init}
    (hpre : CHeader g s pre s0) (hst : Storage st) (ht : CSpec g s0 t s1 (tq, tn)) (hd : CDecls g s1 d s2 [dc])
    (hi : CInit g i ini) (hsemi : semi.w = c%";") (hj : Joins g t d)
    (hl : Lay ⟨tail, g.pack⟩ ' ' text (pre ++ (st ++ (t ++ (d ++ (i ++ [semi])))))) (hlk : LinkOk pre (st ++ (t ++ (d ++ (i ++ [semi])))))
    (hw : tail.all isWhite = true) (hok : dc.Ok) (hfn : declaresFn tn dc = true) :
    ∃ s' r ps qs u0 cs0, parseDefs g s text = (s', none) ∧
      dget (s'.defs .functions) (nameOr dc.name) = some (.func (.func r ps qs)) ∧
      dc.cty (fun x => (evIn g.ev s2 x).dim) (.base tn) = .fn cs0 u0 ∧ Denotes r u0 ∧ DenParams ps cs0 ∧
      ∀ (types : Dict Str Str) (ts : List CType) (k : Nat), LibOk g.cfg types s' → (r :: ps.map (·.2.1)) <+: ts.drop k →
        ∀ u cs, AskOk g.cfg types s' r u → NoConv r → ParamsOk g.cfg types s' ps cs →
          ∀ ks st, CtReach (libEnv g.cfg types s' ts) (libOwn s' ts) (libDim s' ts) ks st →
            (∀ j, k ≤ j → j ≤ k + ps.length → j ∉ ks) → ∀ lock,
            ∃ r', (lib s' ts).2.1[k]? = some r' ∧ ∃ N f st',
              (∀ n, N ≤ n → initFunc (libEnv g.cfg types s' ts) n st r' (libFn s' ts k ps) lock = (.ok f, st')) ∧
              f.params.map (·.1) = cs.map (·.1) ∧
              Mirrors types st'.structs f.resType u ∧ MirrorsArgs types st'.structs f.argTypes cs := by
  obtain ⟨s', h1, s3, ⟨ty, h2, h3, h4⟩, h5⟩ := C61_declaration_partial hg hpre hst ht hd hi hsemi hj hl hlk hw
    (ds := [dc]) (by simpa using hok)
  cases h5
  rw [hfn, if_pos rfl] at h4
  obtain ⟨h, h4, h6⟩ := h4
  have h7 : dget (s'.defs .functions) (nameOr dc.name) = some (.func h) := by
    have := h6 .functions (nameOr dc.name)
    simpa using this
  have hs' : TablesWf g.cfg g.junk s' := by
    have := (C69_parse g he s hs text).1
    rw [h1] at this; exact this
  obtain ⟨_, r, ps, qs, e, _⟩ := hs' _ _ _ h7
  cases e
  have hwr := asked_wf hs' (.result _ r ps qs h7)
  obtain ⟨u0, hu, _⟩ := C70_denotes _ r hwr
  obtain ⟨cs0, hcs⟩ := den_params ps (fun p hp => typeWf_deep (asked_wf hs' (.param _ r ps qs p h7 hp)))
  obtain ⟨k1, k2⟩ := addHack_func h4
  have hden : Denotes ty (.fn cs0 u0) := by
    unfold Denotes; rw [k1, k2]; exact denMods_fn hcs hu
  refine ⟨s', r, ps, qs, u0, cs0, h1, h7, C32_denotes_unique _ _ _ h3 hden, hu, hcs, ?_⟩
  intro types ts k hl hts u cs hr hcv hps ks st hst hfree lock
  obtain ⟨r', w1, N, f, st', _, w2, _, _, w3, _, w4, w5⟩ :=
    C72_wrap_partial hs' hl _ r ps qs h7 k hts u hr hcv cs hps ks st hst hfree lock
  exact ⟨r', w1, N, f, st', w2, w3, w4, w5⟩

/-! ### Example and counterexample -/

/-- The table of the backend is as `PtrTable` says. -/
theorem ptrTable_ctypes : PtrTable ctypesTable := by
  intro s p h
  have hm := dget_some_mem h
  have : ∀ x ∈ ctypesTable, specialPtr x.1 = if x.2 = c%"c_char" then some c%"c_char_p"
      else if x.2 = c%"c_wchar" then some c%"c_wchar_p" else none := by decide
  exact this (s, p) hm

attribute [local irreducible] clStore

/-- The parameters of `visit` in `clText`. -/
def clParams : List Param := [(some c%"first", ctTy c%"struct node" [ctPtr], none), (some c%"cb", ctTy c%"cb_t" [], none),
  (some c%"msg", ctTy c%"char" [ctPtr, ctPtr], none), (some c%"n", ctTy c%"unsigned" [], none)]

/-- Their C types. -/
def clCs : List (Option Str × CTy) := [(some c%"first", .ptr (.base c%"struct node")),
  (some c%"cb", .ptr (.fn [(none, .ptr (.base c%"struct node")), (none, .ptr (.base c%"char"))] (.base c%"int"))),
  (some c%"msg", .ptr (.ptr (.base c%"char"))), (some c%"n", .base c%"unsigned")]

theorem clVisit : dget (clStore.defs .functions) c%"visit" = some (.func (.func (ctTy c%"int" []) clParams [some [], some []])) := by
  rw [clFunctions]; rfl

theorem clCb : AskOk exSetup.cfg ctypesTable clStore (ctTy c%"cb_t" [])
    (.ptr (.fn [(none, .ptr (.base c%"struct node")), (none, .ptr (.base c%"char"))] (.base c%"int"))) := by
  refine ⟨⟨clShape rfl, by simp [ctTy]⟩, ?_,
    ⟨_, 1, .nil _, clExpand (t := ctTy c%"int" [.fn [(none, ctTy c%"struct node" [ctPtr], none), (none, ctTy c%"char" [ctPtr], none)], ctPtr]) (u := .ptr (.fn [(none, .ptr (.base c%"struct node")), (none, .ptr (.base c%"char"))] (.base c%"int")))
      (by rfl) (by rw [clTypes]; rfl) (.fn _ _ _ _ _ (.cons _ _ _ _ _ _ (.ptr _ _ _ (.nil _)) (.cons _ _ _ _ _ _ (.ptr _ _ _ (.nil _)) .nil)) (.ptr _ _ _ (.nil _)))
      (.ptr _ _ _ (.fn _ _ _ _ _ (.cons _ _ _ _ _ _ (.ptr _ _ _ (clFund (by rfl) rfl))
        (.cons _ _ _ _ _ _ (.ptr _ _ _ (clFund (by rfl) rfl)) (.nil _))) (clFund (by rfl) rfl)))⟩,
    .fnptr _ _ (.prim _ _ (by rfl)) (by simp) ?_⟩
  · refine .mk _ rfl (fun b ps p hb hp hps => ?_)
    have h1 := (C01_result _ _ _ _ clMap (by rfl)).2 ⟨b, hb, rfl⟩
    rw [clTm, clTypes] at h1
    have h3 := h1.symm.trans (show _ = .ok (ctTy c%"int" [.fn [(none, ctTy c%"struct node" [ctPtr], none), (none, ctTy c%"char" [ctPtr], none)], ctPtr]) from rfl)
    simp only [Except.ok.injEq, ctTy, TypeF.mk.injEq] at h3
    rw [h3.2.1] at hp
    simp [ctPtr] at hp
    subst hp
    simp only [List.mem_cons, List.not_mem_nil, or_false] at hps
    rcases hps with rfl | rfl
    · exact clFinite rfl (r := ctTy c%"struct node" [ctPtr]) rfl (by simp [ctTy, ctPtr])
    · exact clFinite rfl (r := ctTy c%"char" [ctPtr]) rfl (by simp [ctTy, ctPtr])
  · simp only [List.mem_cons, List.not_mem_nil, or_false]
    rintro x (rfl | rfl)
    · exact .ptr _ clNode
    · exact .ptr _ (.prim _ _ (by rfl))

theorem clParamsOk : ParamsOk exSetup.cfg ctypesTable clStore clParams clCs := by
  refine .cons _ _ _ _ (by simp [VoidParam, ctTy]) ⟨⟨clShape rfl, by simp [ctTy, ctPtr]⟩,
    clFinite rfl (r := ctTy c%"struct node" [ctPtr]) rfl (by simp [ctTy, ctPtr]),
    ⟨_, 0, .ptr _ _ _ (.nil _), .ptr _ _ _ (clFund (by rfl) rfl)⟩, .ptr _ clNode⟩ (by simp) ?_
  refine .cons _ _ _ _ (by simp [VoidParam, ctTy]) clCb (by simp) ?_
  refine .cons _ _ _ _ (by simp [VoidParam, ctTy]) ⟨⟨clShape rfl, by simp [ctTy, ctPtr]⟩,
    clFinite rfl (r := ctTy c%"char" [ctPtr, ctPtr]) rfl (by simp [ctTy, ctPtr]),
    ⟨_, 0, .ptr _ _ _ (.ptr _ _ _ (.nil _)), .ptr _ _ _ (.ptr _ _ _ (clFund (by rfl) rfl))⟩, .ptr _ (.ptr _ (.prim _ _ (by rfl)))⟩ (by simp) ?_
  exact .cons _ _ _ _ (by simp [VoidParam, ctTy]) ⟨⟨clShape rfl, by simp [ctTy]⟩,
    clFinite rfl (r := ctTy c%"unsigned" []) rfl (by simp [ctTy]),
    ⟨_, 0, .nil _, clFund (by rfl) rfl⟩, .prim _ _ (by rfl)⟩ (by simp) .nil

/-- C72 on a header text: `visit` can be wrapped, and its classes mirror the declared types. -/
theorem C72_example : processFiles exSetup Store.empty [(c%"t.h", clText)] = .ok clStore ∧
    ∃ r', (lib clStore (ctTy c%"int" [] :: clParams.map (·.2.1))).2.1[0]? = some r' ∧ ∃ N g st',
      (∀ n, N ≤ n → initFunc (libEnv exSetup.cfg ctypesTable clStore (ctTy c%"int" [] :: clParams.map (·.2.1))) n
        (ctStart (lib clStore (ctTy c%"int" [] :: clParams.map (·.2.1))).2.2) r'
        (libFn clStore (ctTy c%"int" [] :: clParams.map (·.2.1)) 0 clParams) false = (.ok g, st')) ∧
      g.params.map (·.1) = [some c%"first", some c%"cb", some c%"msg", some c%"n"] ∧
      Mirrors ctypesTable st'.structs g.resType (.base c%"int") ∧ MirrorsArgs ctypesTable st'.structs g.argTypes clCs := by
  refine ⟨clFiles, ?_⟩
  obtain ⟨r', h1, N, g, st', ks', h2, h3, h4, h5, h6, h7, h8⟩ := C72_wrap_partial (ts := ctTy c%"int" [] :: clParams.map (·.2.1))
    (C69_files exSetup (by simp [ExtraWords, exSetup]) _ _ _ (C69_empty _ _) clFiles) clLib c%"visit" _ _ _ clVisit 0
    (List.prefix_refl _) (.base c%"int") ⟨⟨clShape rfl, by simp [ctTy]⟩, clFinite rfl (r := ctTy c%"int" []) rfl (by simp [ctTy]),
      ⟨_, 0, .nil _, clFund (by rfl) rfl⟩, .prim _ _ (by rfl)⟩ (by unfold NoConv; simp [ctTy]) clCs clParamsOk [] _ C70_start (by simp) false
  exact ⟨r', h1, N, g, st', h2, h5, h7, h8⟩

/-- The types asked for `visit`. -/
abbrev clTs : List CType := ctTy c%"int" [] :: clParams.map (·.2.1)

/-- `visit` wrapped. -/
def clWrap := initFunc (libEnv exSetup.cfg ctypesTable clStore clTs) 40 (ctStart (lib clStore clTs).2.2) (ctTy c%"int" [])
  (libFn clStore clTs 0 clParams) false

/-- `visit(x, None, n=y)`: `msg` is omitted. -/
def clCall (g : CFunc) (st : CtState) := callFunc (A := Nat) (libEnv exSetup.cfg ctypesTable clStore clTs) 40 g (.error .nameError) st
  [.obj 5, .none] [(c%"n", .obj 7)]

unseal clStore in
theorem clWrap_ok : (match clWrap with
    | (.ok g, st) => g.params.map (fun p => (p.1, p.2.2)) == [(some c%"first", none), (some c%"cb", none), (some c%"msg", none), (some c%"n", none)] &&
      (match clCall g st with | (.called _ gs, _) => gs == [2] | _ => false)
    | _ => false) = true := by decide +kernel

attribute [local irreducible] clWrap clCall

theorem clWrapped : ∃ g st1 as st2, clWrap = (.ok g, st1) ∧ clCall g st1 = (.called as [2], st2) ∧
    g.params.map (fun p => (p.1, p.2.2)) = [(some c%"first", none), (some c%"cb", none), (some c%"msg", none), (some c%"n", none)] := by
  have h := clWrap_ok
  cases hw : clWrap with
  | mk x st =>
    rw [hw] at h
    cases x with
    | error x => simp at h
    | ok g =>
      simp only [Bool.and_eq_true, beq_iff_eq] at h
      obtain ⟨h1, h2⟩ := h
      cases hc : clCall g st with
      | mk y st2 =>
        rw [hc] at h2
        cases y with
        | raised x => simp at h2
        | called as gs =>
          simp only [beq_iff_eq] at h2
          subst h2
          exact ⟨g, st, as, st2, rfl, hc, h1⟩

unseal clWrap clCall in
/-- C72 on a call: in `visit(x, None, n=y)`, after wrapping `visit`, the C function gets `x`, a NULL of the class
of `cb_t`, a new object of the class of `char **`, and `y`. -/
theorem C72_example_call : ∃ g st1 as st2, clWrap = (.ok g, st1) ∧ clCall g st1 = (.called as [2], st2) ∧
    as.length = 4 ∧ as[0]? = some (.obj 5) ∧ as[3]? = some (.obj 7) ∧
    (∃ c, as[1]? = some (.nul c) ∧ Mirrors ctypesTable st2.structs c
      (.ptr (.fn [(none, .ptr (.base c%"struct node")), (none, .ptr (.base c%"char"))] (.base c%"int")))) ∧
    ∃ c, as[2]? = some (.auto c) ∧ Mirrors ctypesTable st2.structs c (.ptr (.ptr (.base c%"char"))) := by
  obtain ⟨g, st1, as, st2, h1, h2, h3⟩ := clWrapped
  refine ⟨g, st1, as, st2, h1, h2, ?_⟩
  have hl : g.params.length = 4 := by simpa using congrArg List.length h3
  have hn : ∀ i k, NameAt g.params i k ↔ [c%"first", c%"cb", c%"msg", c%"n"][i]? = some k := by
    intro i k
    have h4 := congrArg (fun l => (l[i]?).map (·.1)) h3
    simp only [List.getElem?_map, Option.map_map] at h4
    unfold NameAt
    constructor
    · rintro ⟨q, hq, hk⟩
      rw [hq] at h4
      rcases i with _ | _ | _ | _ | i <;> simp [hk] at h4 ⊢ <;> exact h4.symm
    · intro hk
      rcases i with _ | _ | _ | _ | i <;> simp at hk <;> subst hk <;> simpa using h4
  have hpl : PlainC g := by
    refine ⟨?_, fun p hp => ?_⟩
    · intro i j k hi hj
      have hi := (hn _ _).1 hi
      have hj := (hn _ _).1 hj
      rcases i with _ | _ | _ | _ | i <;> simp at hi <;> subst hi <;> rcases j with _ | _ | _ | _ | j <;> simp at hj <;> rfl
    · have : (p.1, p.2.2) ∈ g.params.map (fun p => (p.1, p.2.2)) := List.mem_map_of_mem hp
      rw [h3] at this
      simp at this
      grind
  have hfc : FairCall (A := Nat) g [.obj 5, .none] [(c%"n", .obj 7)] :=
    ⟨by simp [hl], by simp, fun k v hk => by simp at hk; exact ⟨3, (hn _ _).2 (by simp [hk.1])⟩⟩
  have hs : TablesWf exSetup.cfg exSetup.junk clStore := C69_files exSetup (by simp [ExtraWords, exSetup]) _ _ _ (C69_empty _ _) clFiles
  obtain ⟨r', w1, N, g', st', ks, w2, w3, w4, w5, w6⟩ := C72_wrap_partial (ts := clTs)
    hs clLib c%"visit" _ _ _ clVisit 0
    (List.prefix_refl _) (.base c%"int") ⟨⟨clShape rfl, by simp [ctTy]⟩, clFinite rfl (r := ctTy c%"int" []) rfl (by simp [ctTy]),
      ⟨_, 0, .nil _, clFund (by rfl) rfl⟩, .prim _ _ (by rfl)⟩ (by unfold NoConv; simp [ctTy]) clCs clParamsOk [] _ C70_start (by simp) false
  have hr : r' = ctTy c%"int" [] := by
    obtain ⟨t', e1, e2⟩ := top_ok (s := clStore) (ts := clTs) (k := 0) (t := ctTy c%"int" []) rfl
      (typeWf_deep (asked_wf hs (.result _ _ _ _ clVisit))).arr
    rw [w1] at e1
    cases e1
    obtain ⟨a, b, c⟩ := e2.num
    cases r' with
    | mk sp ms qs =>
      simp only at a b c
      subst a b
      cases c
      rfl
  subst hr
  have h4 := w2 (max N 40) (by omega)
  rw [initFunc_more (by omega) h1] at h4
  cases h4
  have := C72_call_partial hs clLib ptrTable_ctypes c%"visit" _ _ _ clVisit 0 (List.prefix_refl _) clCs clParamsOk 40 _ false _ _ _ h1 hpl
    ks _ _ w3 40 _ _ _ hfc (fun p hp => .inl (by
      simp only [clParams, List.mem_cons, List.not_mem_nil, or_false] at hp
      rcases hp with rfl | rfl | rfl | rfl <;> exact ⟨by simp [ctTy, ctPtr], clShape rfl, by simp [ctTy, ctPtr]⟩)) as [2] h2
  obtain ⟨_, a1, a2⟩ := this
  refine ⟨a1, (a2 0 _ _ rfl).2.1 5 (.inr ⟨?_, rfl⟩), (a2 3 _ _ rfl).2.1 7 (.inl ⟨c%"n", by simp, (hn _ _).2 rfl⟩),
    (a2 1 _ _ rfl).2.2.1 .none (.inl rfl) (.inr ⟨?_, rfl⟩), ?_⟩
  · intro k w hk; simp at hk; rw [hn, hk.1]; decide
  · intro k w hk; simp at hk; rw [hn, hk.1]; decide
  · obtain ⟨_, c, b1, b2⟩ := (a2 2 _ _ rfl).2.2.2 ⟨fun k w hk => by simp at hk; rw [hn, hk.1]; decide, by simp⟩
    refine ⟨c, b1, ?_⟩
    rcases b2 with ⟨_, _, b2, _⟩ | b2
    · simp at b2
    · exact b2.2

/-- C72 fails for `char *`: in `int f(char *s)`, called without arguments, `argtypes` has `c_char_p` but the object
made for `s` is a `POINTER(c_char_p)`, which does not mirror `char *`. -/
theorem C72_counterexample_char : ∃ g st1,
    initFunc (cxEnv [] []) 5 exStart (ctTy c%"int" []) [(some c%"s", ctTy c%"char" [ctPtr], none)] false = (.ok g, st1) ∧
    g.argTypes = [.prim c%"c_char_p"] ∧
    (callFunc (A := Nat) (cxEnv [] []) 5 g (.error .nameError) st1 [] []).1 = .called [.auto (.ptr (.prim c%"c_char_p"))] [0] ∧
    ∀ types structs, ¬ Mirrors types structs (.ptr (.prim c%"c_char_p")) (.ptr (.base c%"char")) := by
  refine ⟨_, _, rfl, rfl, rfl, fun types structs h => ?_⟩
  cases h with
  | ptr _ _ _ ho => exact absurd (ho.2 _ rfl) (by decide)

end Pyclib
