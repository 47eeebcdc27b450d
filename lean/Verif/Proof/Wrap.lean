import Verif.Proof.CtypesFuel
import Verif.Props.Ctypes
import Verif.Spec.Calls
import Verif.Props.Call
/-! Wrapping and calling functions, on top of the theorems on classes. -/
namespace Pyclib
open Spec

section
variable {e : CtEnv} {own : Int → Owner} {dim : Int → Option Int}

/-- What wrapping needs of the type of one parameter, or of the result. -/
structure Wrappable (e : CtEnv) (own : Int → Owner) (dim : Int → Option Int) (k : Nat) (t : CType) (v : CTy) : Prop where
  ok : TyOk e own (.top k) t
  finite : FiniteParams e t
  means : Means e.cfg e.tm dim t v
  build : Buildable e.types (KnownTag e) v

/-- Parameters with their positions and C types. -/
inductive WrapParams (e : CtEnv) (own : Int → Owner) (dim : Int → Option Int) : List Nat → List Param → List (Option Str × CTy) → Prop
  | nil : WrapParams e own dim [] [] []
  | cons (k : Nat) (ks : List Nat) (p : Param) (ps : List Param) (v : CTy) (cs : List (Option Str × CTy))
      (h : Wrappable e own dim k p.2.1 v) (hv : v ≠ .base c%"void") (hs : WrapParams e own dim ks ps cs) :
      WrapParams e own dim (k :: ks) (p :: ps) ((p.1, v) :: cs)

theorem ask (hw : CtWorld e own) (hb : CtBuild e dim) (hf : ∀ m ∈ allMembers e, FiniteParams e m.type)
    {ks : List Nat} {st : CtState} (hr : CtReach e own dim ks st) {k : Nat} {t : CType} {v : CTy}
    (h : Wrappable e own dim k t v) (hk : k ∉ ks) :
    ∃ N c st', (∀ n, N ≤ n → getType e n st t = (.ok c, st')) ∧ CtReach e own dim (k :: ks) st' ∧
      Mirrors e.types st'.structs c v ∧ ∀ tag id, dget st.structs tag = some id → dget st'.structs tag = some id := by
  obtain ⟨N, c, st', h1, h2⟩ := C47_built_partial hw hb hf hr (.top k) t h.ok (.inr ⟨k, hk, rfl⟩) h.finite v h.means h.build
  refine ⟨N, c, st', h1, ?_, h2, ?_⟩
  · have := CtReach.top ks st N k t hr h.ok hk
    rw [h1 N (Nat.le_refl _)] at this; exact this
  · obtain ⟨hi, htop⟩ := ctReach_inv hw hr
    have := (getType_ok hw N (.top k) t st h.ok hi (fun i hi => htop i k (h.ok.1.owned i hi) hk) (by simp)).1.grow
    rw [h1 N (Nat.le_refl _)] at this; exact this

theorem mirrorsArgs_mono {types : Dict Str Str} {S S' : Dict Str Nat} (hs : ∀ tag id, dget S tag = some id → dget S' tag = some id) :
    ∀ {cl : List Cls} {cs : List (Option Str × CTy)}, MirrorsArgs types S cl cs → MirrorsArgs types S' cl cs
  | _, _, .nil => .nil
  | _, _, .cons _ _ _ _ _ h ht => .cons _ _ _ _ _ (mirrors_mono hs h) (mirrorsArgs_mono hs ht)

theorem args_wrap (hw : CtWorld e own) (hb : CtBuild e dim) (hf : ∀ m ∈ allMembers e, FiniteParams e m.type)
    {ls : List Nat} {ps : List Param} {cs : List (Option Str × CTy)} (h : WrapParams e own dim ls ps cs) :
    ∀ {ks : List Nat} {st : CtState}, CtReach e own dim ks st → ls.Nodup → (∀ k ∈ ls, k ∉ ks) →
    ∃ N cl st', (∀ n, N ≤ n → argClasses (getType e n) st ps = (.ok cl, st')) ∧
      CtReach e own dim (ls.reverse ++ ks) st' ∧ MirrorsArgs e.types st'.structs cl cs ∧ cl.any Cls.isVoid = false ∧
      ∀ tag id, dget st.structs tag = some id → dget st'.structs tag = some id := by
  induction h with
  | nil => intro ks st hr _ _; exact ⟨0, [], st, fun n _ => rfl, hr, .nil, rfl, fun _ _ h => h⟩
  | cons k ls p ps v cs h hv hs ih =>
    intro ks st hr hnd hdis
    obtain ⟨N, c, st1, h1, h2, h3, h4⟩ := ask hw hb hf hr h (hdis k (by simp))
    rw [List.nodup_cons] at hnd
    obtain ⟨N', cl, st2, g1, g2, g3, g4, g5⟩ := ih h2 hnd.2 (fun j hj hm => by
      rcases List.mem_cons.1 hm with rfl | hm
      · exact hnd.1 hj
      · exact hdis j (by simp [hj]) hm)
    refine ⟨max N N', c :: cl, st2, fun n hn => ?_, by simpa using g2, .cons _ _ _ _ _ (mirrors_mono g5 h3) g3, ?_,
      fun tag id h => g5 tag id (h4 tag id h)⟩
    · simp only [argClasses, h1 n (by omega), g1 n (by omega)]
    · rw [List.any_cons, g4, Bool.or_false]
      cases c with
      | void => exact (hv (mirrors_void h3)).elim
      | _ => rfl

/-- The conventions are not in the type of the result. -/
theorem hasConv_false {t : CType} (h : NoConv t) : hasConv t = false := by
  simp only [hasConv, Bool.or_eq_false_iff, List.any_eq_false]
  have h1 := h c%"__stdcall" (by simp)
  have h2 := h c%"__cdecl" (by simp)
  refine ⟨?_, fun m hm => ?_⟩
  · simp [isConv, h1.1, h2.1]
  · cases m with
    | sym s =>
      have a : s ≠ c%"__stdcall" := fun e => h1.2 (e ▸ hm)
      have b : s ≠ c%"__cdecl" := fun e => h2.2 (e ▸ hm)
      simp [isConv, a, b]
    | arr d => simp
    | fn ps => simp

theorem wrap_ok (hw : CtWorld e own) (hb : CtBuild e dim) (hf : ∀ m ∈ allMembers e, FiniteParams e m.type)
    {ks : List Nat} {st : CtState} (hr : CtReach e own dim ks st) {k : Nat} {ls : List Nat} {r : CType} {u : CTy} {ps : List Param}
    {cs : List (Option Str × CTy)} (hret : Wrappable e own dim k r u) (hcv : hasConv r = false)
    (hps : WrapParams e own dim ls (ps.filter (fun p => !isVoidParam p)) cs) (hnd : (k :: ls).Nodup) (hdis : ∀ j ∈ k :: ls, j ∉ ks)
    (lock : Bool) : ∃ N c cl st', (∀ n, N ≤ n → initFunc e n st r ps lock =
        (.ok ⟨r, ps.filter (fun p => !isVoidParam p), lock, c, cl⟩, st')) ∧
      CtReach e own dim (ls.reverse ++ k :: ks) st' ∧ Mirrors e.types st'.structs c u ∧ MirrorsArgs e.types st'.structs cl cs := by
  obtain ⟨N, c, st1, h1, h2, h3, h4⟩ := ask hw hb hf hr hret (hdis k (by simp))
  rw [List.nodup_cons] at hnd
  obtain ⟨N', cl, st2, g1, g2, g3, g4, g5⟩ := args_wrap hw hb hf hps h2 hnd.2 (fun j hj hm => by
    rcases List.mem_cons.1 hm with rfl | hm
    · exact hnd.1 hj
    · exact hdis j (by simp [hj]) hm)
  refine ⟨max N N', c, cl, st2, fun n hn => ?_, g2, mirrors_mono g5 h3, g3⟩
  simp only [initFunc, hcv, h1 n (by omega), g1 n (by omega), g4]
  rfl

/-- More fuel gives the same wrapper. -/
theorem initFunc_more {n m : Nat} (h : n ≤ m) {st st' : CtState} {r : CType} {ps : List Param} {lock : Bool} {g : CFunc}
    (hg : initFunc e n st r ps lock = (.ok g, st')) : initFunc e m st r ps lock = (.ok g, st') := by
  unfold initFunc at hg ⊢
  simp only at hg ⊢
  split at hg
  · simp at hg
  · rename_i hc
    rw [if_neg hc]
    cases h1 : getType e n st r with
    | mk x st1 =>
      rw [h1] at hg
      cases x with
      | error x => simp at hg
      | ok c =>
        have h2 := agrees_more (e := e) h st r (by rw [h1]; simp)
        rw [h2, h1]
        simp only at hg ⊢
        cases h3 : argClasses (getType e n) st1 (ps.filter (fun p => !isVoidParam p)) with
        | mk y st2 =>
          rw [h3] at hg
          cases y with
          | error x => simp at hg
          | ok cs =>
            rw [agrees_args (agrees_more h) _ st1 (by rw [h3]; simp), h3]
            exact hg

/-! ### Pointers made on the fly -/

theorem ptrTypes_get (s : Str) : dget ptrTypes s = specialPtr s := by
  unfold specialPtr ptrTypes
  simp only [dget]
  by_cases h1 : s = c%"char"
  · subst h1; simp
  · by_cases h2 : s = c%"wchar"
    · subst h2; simp
    · by_cases h3 : s = c%"wchar_t"
      · subst h3; simp
      · by_cases h4 : s = c%"void"
        · subst h4; simp
        · simp [h1, h2, h3, h4, Ne.symm h1, Ne.symm h2, Ne.symm h3, Ne.symm h4]

theorem getStruct_comp {rec : CtState → CType → Except PyErr Cls × CtState} {st st' : CtState} {u : Bool} {tag : Str} {c : Cls}
    (h : getStruct e rec st u tag = (.ok c, st')) : ∃ id, c = .comp id := by
  unfold getStruct at h
  split at h
  · simp at h; exact ⟨_, h.1.symm⟩
  · split at h
    · simp at h
    · split at h
      · simp only at h
        split at h
        · simp at h
        · split at h
          · simp at h
          · simp at h; exact ⟨_, h.1.symm⟩
      · simp at h
      · simp at h

/-- `special_pointer_types` for the base class of a type, in terms of the type. -/
theorem special_base (hT : PtrTable e.types) {rec : CtState → CType → Except PyErr Cls × CtState} {st st' : CtState} {r : CType}
    {c : Cls} {ms : List CMod} (h : baseCls e rec false st r = (.ok (c, ms), st')) :
    getPointer.special c = specialPtr r.spec ∧ ms = r.mods ∧ (specialPtr r.spec ≠ none → st' = st) := by
  unfold baseCls at h
  simp only [Bool.false_eq_true, if_false] at h
  cases hd : dget e.types r.spec with
  | some p =>
    simp only [hd, Prod.mk.injEq, Except.ok.injEq] at h
    obtain ⟨⟨rfl, rfl⟩, rfl⟩ := h
    refine ⟨?_, rfl, fun _ => rfl⟩
    rw [hT _ _ hd]; rfl
  | none =>
    simp only [hd] at h
    have hns : ∀ (w tag : Str), r.spec = w ++ tag → (w = c%"struct " ∨ w = c%"union " ∨ w = c%"enum ") → specialPtr r.spec = none := by
      intro w tag e1 hw
      rw [e1]
      rcases hw with rfl | rfl | rfl <;> simp [specialPtr]
    split at h
    · rename_i hsu
      have hnone : specialPtr r.spec = none := by
        rcases Bool.or_eq_true_iff.1 hsu with h1 | h1
        · obtain ⟨tag, e1⟩ := (startsWith_iff _ _).1 h1; exact hns _ tag e1 (.inl rfl)
        · obtain ⟨tag, e1⟩ := (startsWith_iff _ _).1 h1; exact hns _ tag e1 (.inr (.inl rfl))
      cases hta : resolveAlias.tagOf e r.spec with
      | error x => simp [hta] at h
      | ok tag =>
        simp only [hta] at h
        cases hg : getStruct e rec st (!startsWith r.spec c%"struct ") tag with
        | mk x st1 =>
          rw [hg] at h
          cases x with
          | error y => simp at h
          | ok c0 =>
            simp only [Prod.mk.injEq, Except.ok.injEq] at h
            obtain ⟨⟨rfl, rfl⟩, rfl⟩ := h
            refine ⟨?_, rfl, fun h => (h hnone).elim⟩
            obtain ⟨id, rfl⟩ := getStruct_comp hg
            rw [hnone]; rfl
    · split at h
      · rename_i hen
        simp only [Prod.mk.injEq, Except.ok.injEq] at h
        obtain ⟨⟨rfl, rfl⟩, rfl⟩ := h
        obtain ⟨tag, e1⟩ := (startsWith_iff _ _).1 hen
        have := hns _ tag e1 (.inr (.inr rfl))
        exact ⟨by rw [this]; rfl, rfl, fun _ => rfl⟩
      · split at h
        · rename_i hv
          simp only [Prod.mk.injEq, Except.ok.injEq] at h
          obtain ⟨⟨rfl, rfl⟩, rfl⟩ := h
          exact ⟨by rw [hv]; rfl, rfl, fun _ => rfl⟩
        · simp at h

/-- The object made for an omitted argument has the class of the parameter, except for a plain pointer to
`char`, `wchar_t` or `void`. -/
theorem getPointer_cases (hT : PtrTable e.types) {n : Nat} {st st' : CtState} {t r : CType} {c : Cls}
    (hev : evalType e.cfg e.tm t = .ok r) (hs : ShortPtr r) (h : getPointer e n st r t = (.ok c, st')) :
    (∃ p, r.mods = [.sym c%"*"] ∧ specialPtr r.spec = some p ∧ c = .ptr (.prim p) ∧ st' = st) ∨
    (¬ (r.mods = [.sym c%"*"] ∧ specialPtr r.spec ≠ none) ∧ getType e (n + 1) st t = (.ok c, st')) := by
  have hgp : getPointer e n st r t = match getBase e n st t with
      | (.error x, st) => (.error x, st)
      | (.ok c, st) =>
        match getPointer.special c with
        | some p => (.ok (mkPtr (ptrTimes (r.mods.length - 2) (.prim p))), st)
        | none => (.ok (mkPtr (ptrTimes (r.mods.length - 1) c)), st) := by
    unfold getPointer
    rcases hs with hs | hs <;> (rw [hs]; rfl)
  rw [hgp] at h
  simp only [getBase, hev] at h
  cases hb : baseCls e (getType e n) false st r with
  | mk x st1 =>
    rw [hb] at h
    cases x with
    | error y => simp at h
    | ok cm =>
      obtain ⟨c0, ms⟩ := cm
      obtain ⟨h1, rfl, h3⟩ := special_base hT hb
      simp only [h1] at h
      cases hsp : specialPtr r.spec with
      | some p =>
        simp only [hsp, Prod.mk.injEq, Except.ok.injEq] at h
        obtain ⟨rfl, rfl⟩ := h
        have hst : st1 = st := h3 (by simp [hsp])
        subst hst
        rcases hs with hs | hs
        · exact .inl ⟨p, hs, rfl, by rw [hs]; rfl, rfl⟩
        · refine .inr ⟨by simp [hs], ?_⟩
          simp only [getType, hev, baseCls, specialCls, hs, if_true, ptrTypes_get, hsp, Option.map_some]
          rfl
      | none =>
        simp only [hsp, Prod.mk.injEq, Except.ok.injEq] at h
        obtain ⟨rfl, rfl⟩ := h
        refine .inr ⟨by simp, ?_⟩
        have hbt : baseCls e (getType e n) true st r = baseCls e (getType e n) false st r := by
          unfold baseCls
          have : specialCls r = none := by
            unfold specialCls
            split
            · split
              · rw [ptrTypes_get, hsp]; rfl
              · rfl
            · rfl
          simp [this]
        simp only [getType, hev, hbt, hb]
        rcases hs with hs | hs
        · rw [hs]; rfl
        · rw [hs]; rfl

/-- A type that may be asked for any number of times: no array brackets of its own, and none next to each
other in the typedefs it is made of. -/
def Reusable (cfg : Cfg) (tm : Dict Str CType) (t : CType) : Prop :=
  (∀ d, .arr d ∉ t.mods) ∧ ∀ b, Resolves cfg tm t b → NoAdj b.mods

theorem tyOk_reuse {o : Owner} {t : CType} (h : TyOk e own o t) (hr : Reusable e.cfg e.tm t) : TyOk e own .shared t := by
  have hids : ∀ i, i ∉ idsOf t.mods := by
    intro i hi
    simp only [idsOf, List.mem_filterMap] at hi
    obtain ⟨m, hm, he⟩ := hi
    cases m with
    | arr d => exact hr.1 d hm
    | sym s => simp at he
    | fn ps => simp at he
  exact ⟨⟨h.1.quals, h.1.base, h.1.refs, fun i hi => (hids i hi).elim, h.1.nodup,
    fun b hb => ⟨(h.1.res b hb).1, fun _ => hr.2 b hb, (h.1.res b hb).2.2⟩⟩, h.2⟩

theorem short_reuse (hw : CtWorld e own) {t r : CType} (hq : QualsMatch t) (hev : evalType e.cfg e.tm t = .ok r) (hs : ShortPtr r) :
    Reusable e.cfg e.tm t := by
  have key : ∀ b, Resolves e.cfg e.tm t b → b.mods = r.mods := by
    intro b hb
    have := (C01_result _ _ t _ hw.map hq).2 ⟨b, hb, rfl⟩
    rw [hev] at this
    cases this; rfl
  obtain ⟨b, hb, _⟩ := (C01_result _ _ t r hw.map hq).1 hev
  obtain ⟨pre, h1, _⟩ := resolves_pre hb
  have hsym : ∀ m ∈ r.mods, m = .sym c%"*" := by
    intro m hm
    rcases hs with hs | hs <;> (rw [hs] at hm; simpa using hm)
  refine ⟨fun d hd => ?_, fun b hb a1 a2 x y h => ?_⟩
  · have := hsym (.arr d) (by rw [← key b hb, h1]; simp [hd])
    cases this
  · rw [key b hb] at h
    have := hsym (.arr a1) (by rw [h]; simp)
    cases this

theorem autoOk_mono {types : Dict Str Str} {S S' : Dict Str Nat} (hs : ∀ tag id, dget S tag = some id → dget S' tag = some id)
    {c : Cls} {v : CTy} (h : AutoOk types S c v) : AutoOk types S' c v :=
  h.imp id (fun h => ⟨h.1, mirrors_mono hs h.2⟩)

/-- The C type of a short pointer. -/
theorem short_means (hw : CtWorld e own) {o : Owner} {t r : CType} (ht : TyOk e own o t) (hev : evalType e.cfg e.tm t = .ok r)
    (hs : ShortPtr r) {v : CTy} (hv : Means e.cfg e.tm dim t v) :
    (r.mods = [.sym c%"*"] → v = .ptr (.base r.spec)) ∧
    (r.mods = [.sym c%"*", .sym c%"*"] → v = .ptr (.ptr (.base r.spec))) := by
  obtain ⟨b, hb, rfl⟩ := (C01_result _ _ t r hw.map ht.1.quals).1 hev
  obtain ⟨pre, h1, _⟩ := resolves_pre hb
  have hm := means_resolves hb pre h1 ((ht.1.res b hb).2.2 pre h1) v hv
  constructor
  · intro h
    have h : b.mods = _ := h
    rw [h] at hm
    have := meansMods_ptr hm
    exact (meansMods_nil this)
  · intro h
    have h : b.mods = _ := h
    rw [h] at hm
    have := meansMods_ptr (meansMods_ptr hm)
    exact (meansMods_nil this)

variable {A : Type}

theorem completeArg_types (hw : CtWorld e own) (hT : PtrTable e.types) {f : CFunc}
    {ks : List Nat} {st st' : CtState} (hr : CtReach e own dim ks st) {n i : Nat} {s : Slot A} {a : Passed A}
    (hnull : ∀ p, s = .null → f.params[i]? = some p → TyOk e own .shared p.2.1)
    (hps : ∀ p, f.params[i]? = some p → ∃ o, TyOk e own o p.2.1)
    (h : completeArg e n f st i s = (.ok a, st')) :
    CtReach e own dim ks st' ∧ (∀ tag id, dget st.structs tag = some id → dget st'.structs tag = some id) ∧
    ∀ p v, f.params[i]? = some p → Means e.cfg e.tm dim p.2.1 v →
      (s = .null → ∃ c, a = .nul c ∧ Mirrors e.types st'.structs c v) ∧
      (s = .missing → ∃ c, a = .auto c ∧ AutoOk e.types st'.structs c v) := by
  have hgt : ∀ (t : CType) (m : Nat) (c : Cls), TyOk e own .shared t → getType e m st t = (.ok c, st') →
      CtReach e own dim ks st' ∧ (∀ tag id, dget st.structs tag = some id → dget st'.structs tag = some id) ∧
      ∀ v, Means e.cfg e.tm dim t v → Mirrors e.types st'.structs c v := by
    intro t m c ht hg
    have h1 := CtReach.shared ks st m t hr ht
    rw [hg] at h1
    refine ⟨h1, ?_, fun v hv => ?_⟩
    · obtain ⟨hi, _⟩ := ctReach_inv hw hr
      have := (getType_ok hw m .shared t st ht hi (clean_shared hi ht) (by simp)).1.grow
      rw [hg] at this; exact this
    · have := C47_mirrors_partial hw hr .shared t ht (.inl rfl) m c v (by rw [hg]) hv
      rw [hg] at this; exact this
  cases s with
  | obj b =>
    simp [completeArg] at h
    obtain ⟨_, rfl⟩ := h
    exact ⟨hr, fun _ _ h => h, fun p v _ _ => ⟨by simp, by simp⟩⟩
  | null =>
    simp only [completeArg] at h
    cases hp : f.params[i]? with
    | none => simp [hp] at h
    | some p =>
      simp only [hp] at h
      cases he : evalType e.cfg e.tm p.2.1 with
      | error x => simp [he] at h
      | ok r =>
        simp only [he] at h
        split at h
        · simp at h
        · cases hg : getType e n st p.2.1 with
          | mk res st1 =>
            rw [hg] at h
            cases res with
            | error x => simp at h
            | ok c =>
              simp at h
              obtain ⟨rfl, rfl⟩ := h
              obtain ⟨g1, g2, g3⟩ := hgt p.2.1 n c (hnull p rfl hp) hg
              refine ⟨g1, g2, fun q v hq hv => ⟨fun _ => ⟨c, rfl, ?_⟩, by simp⟩⟩
              cases hq
              exact g3 v hv
  | missing =>
    simp only [completeArg] at h
    cases hp : f.params[i]? with
    | none => simp [hp] at h
    | some p =>
      simp only [hp] at h
      cases he : evalType e.cfg e.tm p.2.1 with
      | error x => simp [he] at h
      | ok r =>
        simp only [he] at h
        cases hg : getPointer e n st r p.2.1 with
        | mk res st1 =>
          rw [hg] at h
          cases res with
          | error x => simp at h
          | ok c =>
            simp at h
            obtain ⟨rfl, rfl⟩ := h
            rcases getPointer_short hg with ⟨hs, _⟩ | ⟨_, q | q, _⟩
            · obtain ⟨o, ho⟩ := hps p hp
              have hsm := fun v => short_means (dim := dim) hw ho he hs (v := v)
              rcases getPointer_cases hT he hs hg with ⟨q, h1, h2, rfl, rfl⟩ | ⟨h1, h2⟩
              · refine ⟨hr, fun _ _ h => h, fun p' v hp' hv => ⟨by simp, fun _ => ⟨_, rfl, .inl ?_⟩⟩⟩
                cases hp'
                exact ⟨_, q, (hsm v hv).1 h1, h2, rfl⟩
              · obtain ⟨g1, g2, g3⟩ := hgt p.2.1 (n + 1) c (tyOk_reuse ho (short_reuse hw ho.1.quals he hs)) h2
                refine ⟨g1, g2, fun p' v hp' hv => ⟨by simp, fun _ => ⟨_, rfl, .inr ⟨fun s hvs => ?_, ?_⟩⟩⟩⟩
                · cases hp'
                  rcases hs with hs | hs
                  · have := (hsm v hv).1 hs
                    rw [this] at hvs; cases hvs
                    cases hsp : specialPtr r.spec with
                    | none => rfl
                    | some x => exact (h1 ⟨hs, by simp [hsp]⟩).elim
                  · have := (hsm v hv).2 hs
                    rw [this] at hvs; cases hvs
                · cases hp'
                  exact g3 v hv
            · simp at q
            · simp at q

theorem complete_types (hw : CtWorld e own) (hT : PtrTable e.types) {f : CFunc} (hps : ∀ p ∈ f.params, ∃ o, TyOk e own o p.2.1)
    {ks : List Nat} {n : Nat} (l : List (Slot A)) : ∀ {st st' : CtState} {i : Nat} {as : List (Passed A)} {g : List Nat},
    CtReach e own dim ks st →
    (∀ (j : Nat) (p : Param), l[j]? = some .null → f.params[i + j]? = some p → TyOk e own .shared p.2.1) →
    complete e n f st i l = (.ok (as, g), st') →
    CtReach e own dim ks st' ∧ (∀ tag id, dget st.structs tag = some id → dget st'.structs tag = some id) ∧
    ∀ (j : Nat) (s : Slot A) (p : Param) (v : CTy), l[j]? = some s → f.params[i + j]? = some p → Means e.cfg e.tm dim p.2.1 v →
      (s = .null → ∃ c, as[j]? = some (.nul c) ∧ Mirrors e.types st'.structs c v) ∧
      (s = .missing → ∃ c, as[j]? = some (.auto c) ∧ AutoOk e.types st'.structs c v) := by
  induction l with
  | nil =>
    intro st st' i as g hr _ h
    simp [complete] at h
    obtain ⟨_, rfl⟩ := h
    exact ⟨hr, fun _ _ h => h, by simp⟩
  | cons s l ih =>
    intro st st' i as g hr hnull h
    simp only [complete] at h
    cases hc : completeArg e n f st i s with
    | mk r1 st1 =>
      rw [hc] at h
      cases r1 with
      | error x => simp at h
      | ok a =>
        simp only at h
        cases hr2 : complete e n f st1 (i + 1) l with
        | mk r2 st2 =>
          rw [hr2] at h
          cases r2 with
          | error x => simp at h
          | ok ag =>
            obtain ⟨as', g'⟩ := ag
            simp only [Prod.mk.injEq, Except.ok.injEq] at h
            obtain ⟨⟨rfl, _⟩, rfl⟩ := h
            obtain ⟨h1, h2, h3⟩ := completeArg_types hw hT hr (fun p hs hp => hnull 0 p (by simp [hs]) (by simpa using hp))
              (fun p hp => hps p (List.mem_of_getElem? hp)) hc
            obtain ⟨k1, k2, k3⟩ := ih h1 (fun j p hj hp => hnull (j + 1) p (by simpa using hj)
              (by rw [← hp]; congr 1; omega)) hr2
            refine ⟨k1, fun tag id h => k2 tag id (h2 tag id h), fun j s' p v hj hp hv => ?_⟩
            cases j with
            | zero =>
              simp at hj; subst hj
              obtain ⟨q1, q2⟩ := h3 p v (by simpa using hp) hv
              refine ⟨fun e => ?_, fun e => ?_⟩
              · obtain ⟨c, rfl, hm⟩ := q1 e; exact ⟨c, rfl, mirrors_mono k2 hm⟩
              · obtain ⟨c, rfl, hm⟩ := q2 e; exact ⟨c, rfl, autoOk_mono k2 hm⟩
            | succ j =>
              have := k3 j s' p v (by simpa using hj) (by rw [← hp]; congr 1; omega) hv
              simpa using this

end

end Pyclib
