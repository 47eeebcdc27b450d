import Verif.Spec.Session
import Verif.Proof.LibRight
/-! One call in the library of a header: every argument is right, or an argument is unfit and `TypeError` is raised. -/
namespace Pyclib
open Spec

/-! ### The C type of a type and the length of its modifier list -/

/-- The number of pointers, references, arrays and functions around the base type. -/
def Spec.CTy.depth : CTy → Nat
  | .base _ => 0
  | .ptr v => v.depth + 1
  | .ref v => v.depth + 1
  | .arr _ v => v.depth + 1
  | .fn _ v => v.depth + 1

theorem depth_arrsOf (ns : List (Option Int)) (b : CTy) : (arrsOf ns b).depth = b.depth + ns.length := by
  induction ns with
  | nil => rfl
  | cons n ns ih => simp only [arrsOf, CTy.depth, List.length_cons, ih]; omega

/-- Not a calling convention. -/
def solid : CMod → Bool
  | .sym s => !decide (s = c%"__stdcall" ∨ s = c%"__cdecl")
  | _ => true

theorem means_depth {cfg : Cfg} {tm : Dict Str CType} {dim : Int → Option Int} {b v : CTy} {ms : List CMod}
    (h : MeansMods cfg tm dim b ms v) : v.depth = b.depth + (ms.filter solid).length := by
  refine MeansMods.rec (motive_1 := fun b ms v _ => v.depth = b.depth + (ms.filter solid).length)
    (motive_2 := fun _ _ _ => True) (motive_3 := fun _ _ _ => True) ?_ ?_ ?_ ?_ ?_ ?_ ?_ ?_ ?_ ?_ h
  · intro b; rfl
  · intro b ms v _ ih; rw [ih]; simp [solid, CTy.depth]; omega
  · intro b ms v _ ih; rw [ih]; simp [solid, CTy.depth]; omega
  · intro c b ms v hc _ ih; rw [ih]; rcases hc with rfl | rfl <;> simp [solid]
  · intro i is b ms v _ _ ih
    rw [ih, depth_arrsOf]
    have : (((i :: is).map (fun i => CMod.arr [some i])).filter solid) = (i :: is).map (fun i => CMod.arr [some i]) := by
      rw [List.filter_eq_self]; intro m hm; obtain ⟨_, _, rfl⟩ := List.mem_map.1 hm; rfl
    rw [List.filter_append, this]; simp; omega
  · intro ps cs b ms v _ _ _ ih
    rw [ih, List.filter_cons_of_pos (show solid (.fn ps) = true from rfl)]
    simp only [CTy.depth, List.length_cons]; omega
  all_goals intros; trivial

theorem fnPtrs_head {w : Bool} {m : CMod} {ms : List CMod} (h : FnPtrs w (m :: ms)) : solid m = true := by
  cases m with
  | sym s =>
    have : s = c%"*" ∨ s = c%"&" := h.1
    rcases this with rfl | rfl <;> decide
  | arr d => rfl
  | fn ps => rfl

theorem fnPtrs_none {w : Bool} {ms : List CMod} (h : FnPtrs w ms) (h0 : (ms.filter solid).length = 0) : ms = [] := by
  cases ms with
  | nil => rfl
  | cons m ms => rw [List.filter_cons, fnPtrs_head h] at h0; simp at h0

/-- Without a function in front, the rest of the list is of the same form. -/
theorem fnPtrs_tail {w : Bool} {m : CMod} {ms : List CMod} (h : FnPtrs w (m :: ms)) : FnPtrs w ms ∨ ∃ ps, m = .fn ps := by
  cases m with
  | sym s => exact .inl h.2
  | arr d => exact .inl h
  | fn ps => exact .inr ⟨ps, rfl⟩

/-- A function is followed by something that is a pointer. -/
theorem fnPtrs_fn {w : Bool} {ps : List Param} {ms : List CMod} (h : FnPtrs w (.fn ps :: ms)) :
    ∃ pre ms', ms = pre ++ .sym c%"*" :: ms' ∧ FnPtrs w ms' ∧ (pre = [] ∨ ∃ c, pre = [.sym c] ∧ (c = c%"__stdcall" ∨ c = c%"__cdecl")) := by
  match ms, h with
  | .sym s :: ms, h =>
    rcases h with ⟨rfl, h, _⟩ | ⟨hs, h, hh⟩
    · exact ⟨[], ms, rfl, h, .inl rfl⟩
    · cases ms with
      | nil => simp at hh
      | cons m ms =>
        simp at hh; subst hh
        exact ⟨[.sym s], ms, rfl, h.2, .inr ⟨s, rfl, hs.imp (·.1) id⟩⟩

section
variable {cfg : Cfg} {tm : Dict Str CType} {dim : Int → Option Int}

theorem base_iff {w : Bool} {s : Str} {ms : List CMod} {v : CTy} (h : MeansMods cfg tm dim (.base s) ms v) (hf : FnPtrs w ms) :
    ms = [] ↔ ∃ b, v = .base b := by
  constructor
  · rintro rfl; exact ⟨s, meansMods_nil h⟩
  · rintro ⟨b, rfl⟩
    have := means_depth h
    simp only [CTy.depth] at this
    exact fnPtrs_none hf (by omega)

/-- A list that stands for one step. -/
theorem one_step {w : Bool} {ms : List CMod} (hf : FnPtrs w ms) (h1 : (ms.filter solid).length = 1) : ∃ m, ms = [m] := by
  cases ms with
  | nil => simp at h1
  | cons m ms =>
    rw [List.filter_cons, fnPtrs_head hf] at h1
    simp at h1
    rcases fnPtrs_tail hf with ht | ⟨ps, rfl⟩
    · exact ⟨m, by rw [fnPtrs_none ht (by simpa using h1)]⟩
    · obtain ⟨pre, ms', rfl, _, _⟩ := fnPtrs_fn hf
      have := h1 (.sym c%"*") (by simp)
      simp [solid] at this

theorem means_single {b v : CTy} {m : CMod} (h : MeansMods cfg tm dim b [m] v) :
    (m = .sym c%"*" ∧ v = .ptr b) ∨ (∀ u, v ≠ .ptr u) ∨ solid m = false := by
  generalize he : [m] = l at h
  cases h with
  | nil => cases he
  | ptr _ _ _ h => cases he; exact .inl ⟨rfl, meansMods_nil h⟩
  | ref _ _ _ h => cases he; rw [meansMods_nil h]; exact .inr (.inl (by simp))
  | conv c _ _ _ hc h => cases he; exact .inr (.inr (by simp [solid, hc]))
  | arrs i is _ ms _ hm h =>
    cases is with
    | cons j is => simp at he
    | nil =>
      simp at he
      obtain ⟨_, rfl⟩ := he
      rw [meansMods_nil h]
      exact .inr (.inl (by simp [arrsOf]))
  | fn _ _ _ _ _ _ h => cases he; rw [meansMods_nil h]; exact .inr (.inl (by simp))

theorem outPtr_iff {w : Bool} {s : Str} {ms : List CMod} {v : CTy} (h : MeansMods cfg tm dim (.base s) ms v) (hf : FnPtrs w ms) :
    (ms = [.sym c%"*"] ∨ ms = [.sym c%"*", .sym c%"*"]) ↔ OutPtr v := by
  constructor
  · rintro (rfl | rfl)
    · exact ⟨s, .inl (meansMods_nil (meansMods_ptr h))⟩
    · exact ⟨s, .inr (meansMods_nil (meansMods_ptr (meansMods_ptr h)))⟩
  · have hd := means_depth h
    rintro ⟨b, rfl | rfl⟩
    · simp only [CTy.depth] at hd
      obtain ⟨m, rfl⟩ := one_step hf (by omega)
      have hso := fnPtrs_head hf
      rcases means_single h with ⟨rfl, _⟩ | h' | h'
      · exact .inl rfl
      · exact (h' _ rfl).elim
      · rw [hso] at h'; cases h'
    · simp only [CTy.depth] at hd
      cases ms with
      | nil => simp at hd
      | cons m ms =>
        have hso := fnPtrs_head hf
        rw [List.filter_cons, hso] at hd
        simp only [if_true, List.length_cons] at hd
        rcases fnPtrs_tail hf with ht | ⟨ps, rfl⟩
        · obtain ⟨m', rfl⟩ := one_step ht (by omega)
          have hso' := fnPtrs_head ht
          have key : ∀ b', MeansMods cfg tm dim b' [m'] (.ptr (.ptr (.base b))) → m' = .sym c%"*" ∧ b' = .ptr (.base b) := by
            intro b' hb'
            rcases means_single hb' with ⟨rfl, e⟩ | h' | h'
            · cases e; exact ⟨rfl, rfl⟩
            · exact (h' _ rfl).elim
            · rw [hso'] at h'; cases h'
          generalize he : m :: [m'] = l at h
          cases h with
          | ptr _ _ _ h => cases he; exact .inr (by rw [(key _ h).1])
          | ref _ _ _ h => cases he; cases (key _ h).2
          | conv c _ _ _ hc h => cases he; simp [solid, hc] at hso
          | arrs i is _ ms _ hm h =>
            cases is with
            | nil =>
              simp at he
              obtain ⟨_, rfl⟩ := he
              cases (key _ h).2
            | cons j is =>
              cases is with
              | cons k is => simp at he
              | nil =>
                simp at he
                obtain ⟨_, _, rfl⟩ := he
                have := meansMods_nil h
                simp [arrsOf] at this
          | fn _ _ _ _ _ _ h => cases he; cases (key _ h).2
        · obtain ⟨pre, ms', rfl, _, hpre⟩ := fnPtrs_fn hf
          have h0 : ms' = [] ∨ (ms'.filter solid).length = 0 := by
            right
            rcases hpre with rfl | ⟨c, rfl, hc⟩
            · simp [solid] at hd ⊢; omega
            · simp [solid, hc] at hd ⊢; omega
          have h0 : ms' = [] := h0.elim id (fnPtrs_none (by assumption))
          subst h0
          obtain ⟨cs, _, h⟩ := meansMods_fn h
          have h : MeansMods cfg tm dim (.fn cs (.base s)) [.sym c%"*"] (.ptr (.ptr (.base b))) := by
            rcases hpre with rfl | ⟨c, rfl, hc⟩
            · exact h
            · exact meansMods_conv hc h
          have := meansMods_nil (meansMods_ptr h)
          cases this

end


/-! ### Requests that succeed -/

/-- What is known of the state after a request. -/
structure After (e : CtEnv) (own : Int → Owner) (dim : Int → Option Int) (ks : List Nat) (st st' : CtState) : Prop where
  reach : CtReach e own dim ks st'
  keeps : Keeps st st'
  new : NoNew st st'

section
variable {e : CtEnv} {own : Int → Owner} {dim : Int → Option Int}

theorem After.refl {ks : List Nat} {st : CtState} (hr : CtReach e own dim ks st) : After e own dim ks st st := ⟨hr, .refl _, fun _ h => h⟩
theorem After.trans {ks : List Nat} {a b c : CtState} (h : After e own dim ks a b) (h' : After e own dim ks b c) : After e own dim ks a c :=
  ⟨h'.reach, h.keeps.trans h'.keeps, fun i hi => h.new i (h'.new i hi)⟩

theorem ask_shared (hw : CtWorld e own) (hb : CtBuild e dim) (hf : ∀ m ∈ allMembers e, FiniteParams e m.type)
    {ks : List Nat} {st : CtState} (hr : CtReach e own dim ks st) {t : CType} {v : CTy} (ht : TyOk e own .shared t)
    (hfin : FiniteParams e t) (hv : Means e.cfg e.tm dim t v) (hbv : Buildable e.types (KnownTag e) v)
    {N : Nat} (hN : Steady N (fun n st => getType e n st t)) {n : Nat} (hn : N ≤ n) :
    ∃ c st', getType e n st t = (.ok c, st') ∧ After e own dim ks st st' ∧ Mirrors e.types st'.structs c v := by
  obtain ⟨M, c, st', h1, h2⟩ := C47_built_partial hw hb hf hr .shared t ht (.inl rfl) hfin v hv hbv
  have hg : getType e n st t = (.ok c, st') := by
    rw [← h1 (max n M) (by omega)]
    exact hN n (max n M) hn (by omega) st
  have hr' := CtReach.shared ks st n t hr ht
  have hk := keeps_getType hw.tags n st t
  rw [hg] at hr' hk
  exact ⟨c, st', hg, ⟨hr', hk, fin_getType _ _ _ _ _ hg⟩, h2⟩

theorem eval_ok (hw : CtWorld e own) (hb : CtBuild e dim) {o : Owner} {t : CType} {v : CTy} (ht : TyOk e own o t)
    (hv : Means e.cfg e.tm dim t v) : ∃ r b, evalType e.cfg e.tm t = .ok r ∧ Resolves e.cfg e.tm t b ∧
      r = ⟨dropSigned b.spec, b.mods, b.quals⟩ ∧ MeansMods e.cfg e.tm dim (.base r.spec) r.mods v ∧ FnPtrs e.cfg.win32 r.mods := by
  obtain ⟨b, hbr⟩ := means_has_resolution hw hb.ends hv t rfl ht.1.quals ht.1.base
  obtain ⟨pre, h1, _⟩ := resolves_pre hbr
  have hres := ht.1.res b hbr
  exact ⟨_, b, (C01_result _ _ t _ hw.map ht.1.quals).2 ⟨b, hbr, rfl⟩, hbr, rfl, means_resolves hbr pre h1 (hres.2.2 pre h1) v hv, hres.1⟩

/-- The base class of a short pointer exists. -/
theorem special_total {rec : CtState → CType → Except PyErr Cls × CtState} {st : CtState} {r : CType}
    (hbv : Buildable e.types (KnownTag e) (.base r.spec)) (hsp : specialPtr r.spec ≠ none) :
    ∃ c, baseCls e rec false st r = (.ok (c, r.mods), st) := by
  unfold baseCls
  simp only [Bool.false_eq_true, if_false]
  cases hd : dget e.types r.spec with
  | some p => exact ⟨.prim p, rfl⟩
  | none =>
    have hvoid : r.spec = c%"void" := by
      generalize hx : CTy.base r.spec = x at hbv
      cases hbv with
      | prim s p h => cases hx; rw [hd] at h; cases h
      | void => exact CTy.base.inj hx
      | enum tag => rw [CTy.base.inj hx] at hsp; simp [specialPtr] at hsp
      | struct tag => rw [CTy.base.inj hx] at hsp; simp [specialPtr] at hsp
      | union tag => rw [CTy.base.inj hx] at hsp; simp [specialPtr] at hsp
      | _ => cases hx
    simp only [hvoid]
    exact ⟨.void, by simp [startsWith]⟩

theorem pointer_total (hw : CtWorld e own) (hb : CtBuild e dim) (hf : ∀ m ∈ allMembers e, FiniteParams e m.type) (hT : PtrTable e.types)
    {ks : List Nat} {st : CtState} (hr : CtReach e own dim ks st) {o : Owner} {t r : CType} {v : CTy} (ht : TyOk e own o t)
    (hfin : FiniteParams e t) (hv : Means e.cfg e.tm dim t v) (hbv : Buildable e.types (KnownTag e) v)
    (hev : evalType e.cfg e.tm t = .ok r) (hs : ShortPtr r)
    {N : Nat} (hN : Steady N (fun n st => getType e n st t)) {n : Nat} (hn : N ≤ n) :
    ∃ c st', getPointer e n st r t = (.ok c, st') ∧ After e own dim ks st st' ∧ AutoOk e.types st'.structs c v := by
  have hsh : TyOk e own .shared t := tyOk_reuse ht (short_reuse hw ht.1.quals hev hs)
  obtain ⟨c1, st1, g1, g2, g3⟩ := ask_shared hw hb hf hr hsh hfin hv hbv hN (n := n + 1) (by omega)
  have hsm := short_means (dim := dim) hw ht hev hs hv
  have hbb : Buildable e.types (KnownTag e) (.base r.spec) := by
    rcases hs with h | h
    · rw [hsm.1 h] at hbv
      generalize hx : CTy.ptr (.base r.spec) = x at hbv
      cases hbv with
      | ptr _ h => cases hx; exact h
      | _ => cases hx
    · rw [hsm.2 h] at hbv
      generalize hx : CTy.ptr (.ptr (.base r.spec)) = x at hbv
      cases hbv with
      | ptr _ h =>
        cases hx
        generalize hx : CTy.ptr (.base r.spec) = x at h
        cases h with
        | ptr _ h => cases hx; exact h
        | _ => cases hx
      | _ => cases hx
  have hbase : ∃ c, (getBase e n st t).1 = .ok c := by
    cases hsp : specialPtr r.spec with
    | some p =>
      obtain ⟨c, hc⟩ := special_total (rec := getType e n) (st := st) hbb (by simp [hsp])
      exact ⟨c, by simp only [getBase, hev, hc]⟩
    | none =>
      have hbt : baseCls e (getType e n) true st r = baseCls e (getType e n) false st r := by
        unfold baseCls
        have : specialCls r = none := by
          unfold specialCls
          split
          · split
            · rw [ptrTypes_get, hsp]; rfl
            · rfl
          · rfl
        simp [this]
      simp only [getType, hev, hbt] at g1
      simp only [getBase, hev]
      cases hbc : baseCls e (getType e n) false st r with
      | mk x st2 =>
        rw [hbc] at g1
        cases x with
        | error y => simp at g1
        | ok cm => exact ⟨cm.1, rfl⟩
  cases hp : getPointer e n st r t with
  | mk x st' =>
    obtain ⟨c, hc⟩ := hbase
    rcases getPointer_short hp with ⟨_, h⟩ | ⟨h, _⟩
    · cases x with
      | error y => have := h y rfl; rw [hc] at this; cases this
      | ok c' =>
        refine ⟨c', st', rfl, ?_⟩
        rcases getPointer_cases hT hev hs hp with ⟨q, h1, h2, rfl, rfl⟩ | ⟨h1, h2⟩
        · exact ⟨.refl hr, .inl ⟨_, q, hsm.1 h1, h2, rfl⟩⟩
        · rw [g1] at h2
          cases h2
          refine ⟨g2, .inr ⟨fun s hvs => ?_, g3⟩⟩
          rcases hs with hs | hs
          · rw [hsm.1 hs] at hvs; cases hvs
            cases hsp : specialPtr r.spec with
            | none => rfl
            | some x => exact (h1 ⟨hs, by simp [hsp]⟩).elim
          · rw [hsm.2 hs] at hvs; cases hvs
    · exact (h hs).elim

/-! ### The arguments -/

variable {A : Type}

/-- The entry of `arg_list` for what was given. -/
def slotOf : Option (PyArg A) → Slot A
  | none => .missing
  | some w => w.slot

/-- What a call needs of parameter `p` of C type `v`. -/
structure Fit (e : CtEnv) (own : Int → Owner) (dim : Int → Option Int) (N : Nat) (p : Param) (v : CTy) : Prop where
  ok : ∃ o, TyOk e own o p.2.1
  finite : FiniteParams e p.2.1
  means : Means e.cfg e.tm dim p.2.1 v
  build : Buildable e.types (KnownTag e) v
  steady : Steady N (fun n st => getType e n st p.2.1)

theorem completeArg_right (hw : CtWorld e own) (hb : CtBuild e dim) (hf : ∀ m ∈ allMembers e, FiniteParams e m.type) (hT : PtrTable e.types)
    {f : CFunc} {ks : List Nat} {st : CtState} (hr : CtReach e own dim ks st) {N n i : Nat} (hn : N ≤ n) {p : Param} {v : CTy}
    (hp : f.params[i]? = some p) (hfit : Fit e own dim N p v) (gv : Option (PyArg A))
    (hnull : gv = some .none ∨ gv = some .null → TyOk e own .shared p.2.1) :
    ∃ res st', completeArg e n f st i (slotOf gv) = (res, st') ∧ After e own dim ks st st' ∧
      ((∃ a, res = .ok a ∧ ArgRight e.types st'.structs v gv a) ∨ (res = .error .typeError ∧ Unfit v gv)) := by
  obtain ⟨o, ht⟩ := hfit.ok
  obtain ⟨r, b, hev, _, _, hmm, hfp⟩ := eval_ok hw hb ht hfit.means
  have hbase := base_iff hmm hfp
  have hout : ShortPtr r ↔ OutPtr v := outPtr_iff hmm hfp
  have hnul : ∀ w : PyArg A, (w = .none ∨ w = .null) → gv = some w → ∃ res st', completeArg e n f st i (.null : Slot A) = (res, st') ∧
      After e own dim ks st st' ∧ ((∃ a, res = .ok a ∧ ArgRight e.types st'.structs v gv a) ∨ (res = .error .typeError ∧ Unfit v gv)) := by
    intro w hw' hgv
    by_cases hm : r.mods = []
    · obtain ⟨b, hb'⟩ := hbase.1 hm
      refine ⟨.error .typeError, st, by simp only [completeArg, hp, hev, if_pos hm], .refl hr, .inr ⟨rfl, ?_⟩⟩
      rw [hgv]; exact .null w b hw' hb'
    · obtain ⟨c, st', h1, h2, h3⟩ := ask_shared hw hb hf hr (hnull (by rw [hgv]; rcases hw' with rfl | rfl <;> simp)) hfit.finite hfit.means hfit.build hfit.steady hn
      refine ⟨.ok (.nul c), st', by simp only [completeArg, hp, hev, if_neg hm, h1], h2, .inl ⟨_, rfl, ?_⟩⟩
      rw [hgv]
      exact .nul w c hw' (fun b hb' => hm (hbase.2 ⟨b, hb'⟩)) h3
  match gv, hnull, hnul with
  | some (.obj a), _, _ => exact ⟨.ok (.obj a), st, rfl, .refl hr, .inl ⟨_, rfl, .obj a⟩⟩
  | some .none, _, hnul => exact hnul .none (.inl rfl) rfl
  | some .null, _, hnul => exact hnul .null (.inr rfl) rfl
  | none, _, _ =>
    by_cases hs : ShortPtr r
    · obtain ⟨c, st', h1, h2, h3⟩ := pointer_total hw hb hf hT hr ht hfit.finite hfit.means hfit.build hev hs hfit.steady hn
      exact ⟨.ok (.auto c), st', by simp only [slotOf, completeArg, hp, hev, h1], h2, .inl ⟨_, rfl, .auto c (hout.1 hs) h3⟩⟩
    · refine ⟨.error .typeError, st, ?_, .refl hr, .inr ⟨rfl, .missing (fun h => hs (hout.2 h))⟩⟩
      cases hg : getPointer e n st r p.2.1 with
      | mk x st' =>
        rcases getPointer_short hg with ⟨h, _⟩ | ⟨_, h, rfl⟩
        · exact (hs h).elim
        · rcases h with h | h
          · simp only at h; subst h
            simp only [slotOf, completeArg, hp, hev, hg]
            rfl
          · simp only at h; subst h
            simp only [slotOf, completeArg, hp, hev, hg]
            rfl

theorem argRight_mono {types : Dict Str Str} {S S' : Dict Str Nat} (hs : ∀ tag id, dget S tag = some id → dget S' tag = some id)
    {v : CTy} {gv : Option (PyArg A)} {a : Passed A} (h : ArgRight types S v gv a) : ArgRight types S' v gv a := by
  cases h with
  | obj a => exact .obj a
  | nul w c hw hv h => exact .nul w c hw hv (mirrors_mono hs h)
  | auto c hv h => exact .auto c hv (autoOk_mono hs h)

theorem argRight_auto {types : Dict Str Str} {S : Dict Str Nat} {v : CTy} {gv : Option (PyArg A)} {a : Passed A}
    (h : ArgRight types S v gv a) : (∃ c, a = .auto c) ↔ gv = none := by
  cases h with
  | obj a => simp
  | nul w c hw hv h => simp
  | auto c hv h => simp

theorem complete_right (hw : CtWorld e own) (hb : CtBuild e dim) (hf : ∀ m ∈ allMembers e, FiniteParams e m.type) (hT : PtrTable e.types)
    {f : CFunc} {ks : List Nat} {N n : Nat} (hn : N ≤ n) {vs : Nat → CTy} {gv : Nat → Option (PyArg A)}
    (hfit : ∀ i p, f.params[i]? = some p → Fit e own dim N p (vs i) ∧ (gv i = some .none ∨ gv i = some .null → TyOk e own .shared p.2.1)) :
    ∀ (l : List (Slot A)) {st : CtState} {i : Nat}, CtReach e own dim ks st → i + l.length = f.params.length →
    (∀ (j : Nat) (x : Slot A), l[j]? = some x → x = slotOf (gv (i + j))) →
    ∃ res st', complete e n f st i l = (res, st') ∧ After e own dim ks st st' ∧
      ((∃ as gs, res = .ok (as, gs) ∧ as.length = l.length ∧ gs.Pairwise (· < ·) ∧
          (∀ (j : Nat), j < l.length → ∃ a, as[j]? = some a ∧ ArgRight e.types st'.structs (vs (i + j)) (gv (i + j)) a) ∧
          (∀ k, k ∈ gs ↔ i ≤ k ∧ k < i + l.length ∧ gv k = none)) ∨
        (res = .error .typeError ∧ ∃ k, i ≤ k ∧ k < i + l.length ∧ Unfit (vs k) (gv k))) := by
  intro l
  induction l with
  | nil =>
    intro st i hr _ _
    exact ⟨_, st, rfl, .refl hr, .inl ⟨[], [], rfl, rfl, .nil, by simp, fun k => by simp; omega⟩⟩
  | cons x l ih =>
    intro st i hr hlen hl
    have hp : f.params[i]? = some (f.params[i]'(by simp at hlen; omega)) := List.getElem?_eq_getElem _
    obtain ⟨hfi, hnu⟩ := hfit i _ hp
    have hx : x = slotOf (gv i) := hl 0 x rfl
    obtain ⟨res, st1, h1, h2, h3⟩ := completeArg_right hw hb hf hT hr hn hp hfi (gv i) hnu
    subst hx
    rcases h3 with ⟨a, rfl, ha⟩ | ⟨rfl, hu⟩
    · obtain ⟨res2, st2, g1, g2, g3⟩ := ih h2.reach (i := i + 1) (by simp at hlen; omega) (fun j y hj => by
        rw [show i + 1 + j = i + (j + 1) by omega]; exact hl (j + 1) y (by simpa using hj))
      rcases g3 with ⟨as, gs, rfl, k1, k2, k3, k4⟩ | ⟨rfl, k, hk1, hk2, hk3⟩
      · refine ⟨_, st2, by simp only [complete, h1, g1]; rfl, h2.trans g2, .inl ⟨_, _, rfl, by simp [k1], ?_, ?_, ?_⟩⟩
        · cases a with
          | auto c =>
            simp only [List.pairwise_cons]
            exact ⟨fun k hk => by have := (k4 k).1 hk; omega, k2⟩
          | _ => exact k2
        · intro j hj
          cases j with
          | zero => exact ⟨a, rfl, argRight_mono g2.keeps ha⟩
          | succ j =>
            obtain ⟨b, q1, q2⟩ := k3 j (by simpa using hj)
            exact ⟨b, by simpa using q1, by rw [show i + (j + 1) = i + 1 + j by omega]; exact q2⟩
        · intro k
          have hauto := argRight_auto ha
          refine Iff.trans (b := (k = i ∧ ∃ c, a = .auto c) ∨ k ∈ gs) (by cases a <;> simp) ?_
          rw [hauto, k4]
          simp only [List.length_cons]
          constructor
          · rintro (⟨rfl, h⟩ | ⟨h1, h2, h3⟩)
            · exact ⟨by omega, by omega, h⟩
            · exact ⟨by omega, by omega, h3⟩
          · rintro ⟨h1, h2, h3⟩
            by_cases hki : k = i
            · subst hki; exact .inl ⟨rfl, h3⟩
            · exact .inr ⟨by omega, by omega, h3⟩
      · exact ⟨_, st2, by simp only [complete, h1, g1], h2.trans g2, .inr ⟨rfl, k, by omega, by simp only [List.length_cons]; omega, hk3⟩⟩
    · exact ⟨_, st1, by simp only [complete, h1], h2, .inr ⟨rfl, i, by omega, by simp, hu⟩⟩

end

end Pyclib
