import Verif.Proof.Check
import Verif.Props.Conformance
/-
C74: conditions that can be computed from the recorded definitions suffice for C73-C78, and the header of the
project's own backend tests meets them.
-/
namespace Pyclib
open Spec

/-- The definitions of a header record one qualifier group per level. -/
theorem wf_map {cfg : Cfg} {junk : Str → Str} {s : Store DefVal} (hs : TablesWf cfg junk s) : MapMatch (typeTable (s.defs .types)) := by
  intro n pt h
  have h := (typeTable_wf hs).1 h
  rcases hs _ _ _ h with ⟨_, t, h1, h2⟩ | ⟨u, tag, rfl, hh⟩ | ⟨tag, rfl, hh⟩
  · cases h1; exact (h2 _ (.refl _)).quals
  · cases (C69_tags cfg junk s hs u tag).2 _ h; rfl
  · cases (C69_enums cfg junk s hs tag).2 _ h; rfl

/-- C74: a header whose definitions pass the check meets the conditions of C70-C78. -/
theorem C74_check (w : Setup) (he : ExtraWords w.cfg) (fs : List (Str × Str)) (s : Store DefVal)
    (h : processFiles w Store.empty fs = .ok s) (types : Dict Str Str) (k : Nat) (hc : libOkB w.cfg types s k = true) :
    LibOk w.cfg types s ∧ ∀ {A : Type} (u : Use A), fairB w.cfg types s k u = true → FairUse w.cfg types s u :=
  have hm := wf_map (C69_files w he fs _ s (C69_empty _ _) h)
  ⟨libOkB_ok hm hc, fun _ hu => fairB_ok hm hu⟩

/-- C74: if the definitions of the header and the uses of the library pass the checks, every use has the right outcome. -/
theorem C74_checked {A : Type} (w : Setup) (he : ExtraWords w.cfg) (fs : List (Str × Str)) (s : Store DefVal)
    (h : processFiles w Store.empty fs = .ok s) (types : Dict Str Str) (hT : PtrTable types) (k : Nat)
    (hc : libOkB w.cfg types s k = true) (exports : Str → Bool) :
    ∃ N, ∀ n, N ≤ n → ∀ us : List (Use A), us.all (fairB w.cfg types s k) = true →
      let r := useAll (hdrEnv w.cfg types s) n (hdrLib w.cfg types s n exports false) (hdrStart s) us
      r.1.length = us.length ∧
      ∀ (i : Nat) u x, us[i]? = some u → r.1[i]? = some x → UseRight w.cfg types s exports r.2.b.structs u x := by
  obtain ⟨h1, h2⟩ := C74_check w he fs s h types k hc
  obtain ⟨N, hN⟩ := C74_files_partial (A := A) w he fs s h types h1 hT exports
  exact ⟨N, fun n hn us hu => hN n hn us (fun u hm => h2 u (List.all_eq_true.1 hu u hm))⟩

/-! ### Example: the header of the project's backend tests -/

theorem confFiles : processFiles confSetup Store.empty [(c%"x.h", confCtypesText)] = .ok confCtypes := by
  have : (processFile confSetup Store.empty c%"x.h" confCtypesText).isOk = true := by decide +kernel
  unfold confCtypes confStore
  simp only [processFiles]
  cases h : processFile confSetup Store.empty c%"x.h" confCtypesText with
  | ok s => rfl
  | error e => rw [h] at this; cases this

theorem confChecked : libOkB confSetup.cfg ctypesTable confCtypes 6 = true := by decide +kernel

theorem confUsable : allUsableB confSetup.cfg ctypesTable confCtypes 6 = true := by decide +kernel

/-- The C parameters of `_testfunc_byval`. -/
def confByval : List (Option Str × CTy) := [(some c%"in", .base c%"struct tagpoint"), (some c%"pout", .ptr (.base c%"struct tagpoint"))]

theorem confByvalOk : ∃ r ps q, dget (confCtypes.defs .functions) c%"_testfunc_byval" = some (.func (.func r ps q)) ∧
    ParamsOk confSetup.cfg ctypesTable confCtypes ps confByval := by
  have h1 : dget (confCtypes.defs .functions) c%"_testfunc_byval" = some (.func (.func (ctTy c%"int" [])
      [(some c%"in", ctTy c%"point" [], none), (some c%"pout", ctTy c%"point" [ctPtr], none)] [some [], some []])) := by
    rw [confCtypes_functions]; rfl
  refine ⟨_, _, _, h1, ?_⟩
  have hm := wf_map (C69_files confSetup (by unfold ExtraWords confSetup; decide) _ _ _ (C69_empty _ _) confFiles)
  have h2 : ∀ o, paramsB confSetup.cfg ctypesTable confCtypes 6
      [(some c%"in", ctTy c%"point" [], none), (some c%"pout", ctTy c%"point" [ctPtr], none)] = o →
      (match o with
        | some [(some a, .base b), (some d, .ptr (.base e))] => decide (a = c%"in" ∧ b = c%"struct tagpoint" ∧ d = c%"pout" ∧ e = c%"struct tagpoint")
        | _ => false) = true → o = some confByval := by
    intro o _ h
    split at h
    · simp only [decide_eq_true_eq] at h
      obtain ⟨rfl, rfl, rfl, rfl⟩ := h
      rfl
    · cases h
  exact paramsB_ok hm _ _ (h2 _ rfl (by decide +kernel))

theorem fairB_invoke {cfg : Cfg} {types : Dict Str Str} {s : Store DefVal} {n : Nat} {f : Str} {k : Nat}
    (h : ((fairFnB cfg types s n f).map List.length) = some k) (args : List (PyArg Nat)) (ha : args.length ≤ k) :
    fairB cfg types s n (.invoke f args []) = true := by
  unfold fairB
  cases hf : fairFnB cfg types s n f with
  | none => rw [hf] at h; cases h
  | some cs => rw [hf] at h; simp at h; simp [hf, h, ha]

theorem confByvalFair (args : List (PyArg Nat)) (h : args.length ≤ 2) :
    fairB confSetup.cfg ctypesTable confCtypes 6 (.invoke c%"_testfunc_byval" args []) = true :=
  fairB_invoke (k := 2) (by decide +kernel) args h

/-- C74 on /repo/tests/headers/ctypes_test.h: whatever names were looked up on the library and whatever fair uses were made
of it before, `lib._testfunc_byval(a)` (test_function_call3 of test_ctypes.py) calls the C function with `a` and a new object whose
class is the one of `struct tagpoint *`. -/
theorem C74_example_ctypes_test : processFiles confSetup Store.empty [(c%"x.h", confCtypesText)] = .ok confCtypes ∧
    ∃ N, ∀ n, N ≤ n → ∀ us : List (Use Nat), (∀ u ∈ us, (∃ m, u = .look (.attr m)) ∨ fairB confSetup.cfg ctypesTable confCtypes 6 u = true) → ∀ a : Nat,
      let r := useAll (hdrEnv confSetup.cfg ctypesTable confCtypes) n (hdrLib confSetup.cfg ctypesTable confCtypes n (fun _ => true) false)
        (hdrStart confCtypes) (us ++ [.invoke c%"_testfunc_byval" [.obj a] []])
      ∃ c, r.1[us.length]? = some (.invoked (.called [.obj a, .auto c] [1])) ∧
        AutoOk ctypesTable r.2.b.structs c (.ptr (.base c%"struct tagpoint")) := by
  refine ⟨confFiles, ?_⟩
  obtain ⟨N, h⟩ := C74_checked (A := Nat) confSetup (by unfold ExtraWords confSetup; decide) _ _ confFiles ctypesTable ptrTable_ctypes 6
    confChecked (fun _ => true)
  refine ⟨N, fun n hn us hu a => ?_⟩
  intro r
  obtain ⟨hlen, hall⟩ := h n hn (us ++ [.invoke c%"_testfunc_byval" [.obj a] []]) (by
    rw [List.all_eq_true]
    intro u hm
    rcases List.mem_append.1 hm with hm | hm
    · rcases hu u hm with ⟨m, rfl⟩ | h
      · simp only [fairB, List.all_eq_true]
        exact fun k _ => allUsableB_ok confUsable k m
      · exact h
    · simp only [List.mem_singleton] at hm
      subst hm
      exact confByvalFair _ (by simp))
  have hlt : us.length < r.1.length := by show us.length < List.length _; rw [hlen]; simp
  have hr := hall us.length (.invoke c%"_testfunc_byval" [.obj a] []) _ (by simp) (List.getElem?_eq_getElem hlt)
  rw [List.getElem?_eq_getElem hlt]
  change UseRight _ _ _ _ r.2.b.structs _ r.1[us.length] at hr
  generalize r.1[us.length] = res at hr
  obtain ⟨r0, ps0, q0, hb1, hb2⟩ := confByvalOk
  cases hr with
  | hidden _ _ _ h => cases h
  | invoke f ps cs args kws o hx hd h =>
    obtain ⟨⟨r', q, h1⟩, h2⟩ := hd
    rw [hb1] at h1
    cases h1
    cases params_unique h2 hb2
    have e0 : argFor confByval ([.obj a] : List (PyArg Nat)) [] 0 = some (.obj a) := rfl
    have e1 : argFor confByval ([.obj a] : List (PyArg Nat)) [] 1 = none := rfl
    cases h with
    | called as gs hl ha ho hg =>
      obtain ⟨a0, b0, d0⟩ := ha 0 _ _ rfl
      obtain ⟨a1, b1, d1⟩ := ha 1 _ _ rfl
      rw [e0] at d0
      rw [e1] at d1
      have hgs : gs = [1] := by
        have key : ∀ i, i ∈ gs ↔ i = 1 := by
          intro i
          rw [hg]
          constructor
          · rintro ⟨hi, hn⟩
            rcases i with _ | _ | i
            · rw [e0] at hn; cases hn
            · rfl
            · simp only [confByval, List.length_cons, List.length_nil] at hi
              omega
          · rintro rfl; exact ⟨by decide, e1⟩
        rcases gs with _ | ⟨g0, _ | ⟨g1, gs⟩⟩
        · exact absurd ((key 1).2 rfl) (by simp)
        · rw [(key g0).1 (by simp)]
        · have p := (key g0).1 (by simp)
          have q := (key g1).1 (by simp)
          have := List.rel_of_pairwise_cons ho (a' := g1) (by simp)
          omega
      subst hgs
      cases d0 with
      | nul w c hw hv h =>  rcases hw with h | h <;> cases h
      | obj _ =>
        cases d1 with
        | auto c hv hc =>
          refine ⟨c, ?_, hc⟩
          have : as = [.obj a, .auto c] := by
            rcases as with _ | ⟨x, _ | ⟨y, _ | ⟨z, as⟩⟩⟩ <;> simp [confByval] at hl b0 b1 ⊢
            exact ⟨b0, b1⟩
          rw [this]
    | unfit i name v hi h =>
      rcases i with _ | _ | i
      · rw [e0] at h
        generalize hg : (some (PyArg.obj a)) = g at h
        cases h with
        | null w b hw hv => cases hg; rcases hw with h | h <;> cases h
        | missing hv => cases hg
      · simp [confByval] at hi
        obtain ⟨_, rfl⟩ := hi
        rw [e1] at h
        generalize hg : (none : Option (PyArg Nat)) = g at h
        cases h with
        | null w b hw hv => cases hg
        | missing hv => exact absurd ⟨_, .inl rfl⟩ hv
      · simp [confByval] at hi

end Pyclib
