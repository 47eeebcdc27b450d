import Verif.Model.File
import Verif.Props.Source
/-! Lemmas on the processing of a file: the macro tables inside the definition tables. -/
namespace Pyclib
open Spec

/-- All entries of a table are of one kind. -/
def AllK {α β : Type} (f : α → Option β) (d : Dict Str α) : Prop := ∀ p ∈ d, (f p.2).isSome = true

theorem dproj_cons {α β : Type} (f : α → Option β) (p : Str × α) (d : Dict Str α) {b : β} (h : f p.2 = some b) :
    dproj f (p :: d) = (p.1, b) :: dproj f d := by
  simp [dproj, h]

theorem allK_cons {α β : Type} {f : α → Option β} {p : Str × α} {d : Dict Str α} (h : AllK f (p :: d)) :
    (∃ b, f p.2 = some b) ∧ AllK f d :=
  ⟨Option.isSome_iff_exists.1 (h p (by simp)), fun q hq => h q (by simp [hq])⟩

theorem dproj_dget {α β : Type} {f : α → Option β} : ∀ {d : Dict Str α}, AllK f d → ∀ k,
    dget (dproj f d) k = (dget d k).bind f
  | [], _, k => rfl
  | p :: d, h, k => by
    obtain ⟨⟨b, hb⟩, h2⟩ := allK_cons h
    rw [dproj_cons f p d hb, dget_cons, dget_cons]
    by_cases e : p.1 = k
    · simp [e, hb]
    · simp [e, dproj_dget h2 k]

theorem dproj_dset {α β : Type} {f : α → Option β} : ∀ {d : Dict Str α}, AllK f d → ∀ (k : Str) (v : α) (b : β),
    f v = some b → dproj f (dset d k v) = dset (dproj f d) k b
  | [], _, k, v, b, hv => by simp [dset, dproj, hv]
  | p :: d, h, k, v, b, hv => by
    obtain ⟨⟨c, hc⟩, h2⟩ := allK_cons h
    rw [dproj_cons f p d hc]
    by_cases e : p.1 = k
    · simp only [dset, e, if_true]
      rw [dproj_cons f (k, v) d hv]
    · simp only [dset, e, if_false]
      rw [dproj_cons f (p.1, p.2) _ hc, dproj_dset h2 k v b hv]

theorem dproj_ddel {α β : Type} {f : α → Option β} (k : Str) : ∀ d : Dict Str α,
    dproj f (ddel d k) = ddel (dproj f d) k
  | [] => rfl
  | p :: d => by
    have ih := dproj_ddel (f := f) k d
    by_cases e : p.1 = k
    · have h1 : ddel (p :: d) k = ddel d k := by simp [ddel, e]
      rw [h1, ih]
      cases hf : f p.2 with
      | none => simp [dproj, hf]
      | some b => rw [dproj_cons f p d hf]; simp [ddel, e]
    · have h1 : ddel (p :: d) k = p :: ddel d k := by simp [ddel, e]
      rw [h1]
      cases hf : f p.2 with
      | none =>
        have h2 : ∀ d', dproj f (p :: d') = dproj f d' := by intro d'; simp [dproj, hf]
        rw [h2, h2, ih]
      | some b =>
        rw [dproj_cons f p d hf, dproj_cons f p _ hf, ih]
        simp [ddel, e]

theorem allK_dset {α β : Type} {f : α → Option β} : ∀ {d : Dict Str α}, AllK f d → ∀ (k : Str) (v : α),
    (f v).isSome = true → AllK f (dset d k v)
  | [], _, k, v, hv => by
    intro p hp
    simp [dset] at hp
    subst hp; exact hv
  | q :: d, h, k, v, hv => by
    obtain ⟨hq, h2⟩ := allK_cons h
    intro p hp
    simp only [dset] at hp
    split at hp
    · rcases List.mem_cons.1 hp with rfl | hp
      · exact hv
      · exact h2 p hp
    · rcases List.mem_cons.1 hp with rfl | hp
      · exact h _ (by simp)
      · exact allK_dset h2 k v hv p hp

theorem allK_ddel {α β : Type} {f : α → Option β} {d : Dict Str α} (h : AllK f d) (k : Str) : AllK f (ddel d k) :=
  fun p hp => h p (List.mem_filter.1 hp).1

theorem ddel_absent {α : Type} (d : Dict Str α) (k : Str) (h : dhas d k = false) : ddel d k = d := by
  have hk : k ∉ dkeys d := by
    rw [← dget_none_iff]
    simpa [dhas] using h
  unfold ddel
  rw [List.filter_eq_self]
  intro p hp
  simp only [decide_eq_true_eq, ne_eq]
  intro e
  exact hk (by rw [← e]; exact List.mem_map_of_mem hp)

theorem defs_remDef_all (s : Store DefVal) (n : Str) (k : Kind) :
    (remDef s .macros n).1.defs k = if k = .macros then ddel (s.defs .macros) n else s.defs k := by
  unfold remDef
  by_cases h : dhas (s.defs .macros) n = true
  · simp only [h, if_true]
    have key : (kset s.defs .macros (ddel (s.defs .macros) n)) k =
        if k = .macros then ddel (s.defs .macros) n else s.defs k := by simp [kset]
    split
    · exact key
    · split
      · exact key
      · exact key
  · simp only [h]
    simp only [Bool.false_eq_true, if_false]
    split
    · rename_i hk
      subst hk
      rw [ddel_absent]
      simpa using h
    · rfl

/-- The macro tables hold macros. -/
structure MacOk (s : Store DefVal) : Prop where
  mac : AllK DefVal.macro? (s.defs .macros)
  fn : AllK DefVal.fnmacro? (s.defs .fnmacros)

theorem defs_add (s : Store DefVal) (k : Kind) (n : Str) (v : DefVal) (k' : Kind) :
    (addDef s k n v).defs k' = if k' = k then dset (s.defs k) n v else s.defs k' := by
  simp [addDef, kset]

theorem fn_get {s : Store DefVal} (h : MacOk s) (x : Str) :
    dget (menvOf s).fnmacros x = (dget (s.defs .fnmacros) x).bind DefVal.fnmacro? := dproj_dget h.fn x

theorem mac_get {s : Store DefVal} (h : MacOk s) (x : Str) :
    dget (menvOf s).macros x = (dget (s.defs .macros) x).bind DefVal.macro? := dproj_dget h.mac x

theorem bind_isSome {α β : Type} {f : α → Option β} {d : Dict Str α} (h : AllK f d) (x : Str) :
    ((dget d x).bind f).isSome = (dget d x).isSome := by
  cases e : dget d x with
  | none => rfl
  | some v => exact h _ (dget_some_mem e)

theorem menv_define {s : Store DefVal} (h : MacOk s) (ev : EvalExpr) (n r : Str) :
    menvOf (defineIn ev s n r) = defineMacro (menvOf s) n r ∧ MacOk (defineIn ev s n r) := by
  unfold defineIn defineMacro
  simp only [fn_get h]
  cases e : dget (s.defs .fnmacros) (parseDefine r).2 with
  | some f =>
    have hs := h.fn _ (dget_some_mem e)
    obtain ⟨b, hb⟩ := Option.isSome_iff_exists.1 hs
    simp only at hb
    simp only [Option.bind_some, hb]
    refine ⟨?_, ⟨?_, ?_⟩⟩
    · unfold menvOf
      simp only [defs_add]
      simp [dproj_dset h.fn n f b hb]
    · simp only [defs_add]; simpa using h.mac
    · simp only [defs_add]
      simpa using allK_dset h.fn n f (by simp [hb])
  | none =>
    simp only [Option.bind_none]
    cases (parseDefine r).1 with
    | none =>
      refine ⟨?_, ⟨?_, ?_⟩⟩
      · unfold menvOf
        simp only [defs_add]
        simp [dproj_dset h.mac n (.macro (parseDefine r).2) (parseDefine r).2 rfl]
      · simp only [defs_add]
        simpa using allK_dset h.mac n _ rfl
      · simp only [defs_add]; simpa using h.fn
    | some ps =>
      refine ⟨?_, ⟨?_, ?_⟩⟩
      · unfold menvOf
        simp only [defs_add]
        simp [dproj_dset h.fn n (.fnmacro (compileFn (parseDefine r).2 ps)) _ rfl]
      · simp only [defs_add]; simpa using h.mac
      · simp only [defs_add]
        simpa using allK_dset h.fn n _ rfl

theorem menv_undef {s : Store DefVal} (h : MacOk s) (n : Str) :
    menvOf (remDef s .macros n).1 = undefMacro (menvOf s) n ∧ MacOk (remDef s .macros n).1 := by
  refine ⟨?_, ⟨?_, ?_⟩⟩
  · unfold menvOf undefMacro
    simp [defs_remDef_all, dproj_ddel]
  · rw [defs_remDef_all]; simpa using allK_ddel h.mac n
  · rw [defs_remDef_all]; simpa using h.fn

/-! ### Simulation -/

/-- The state with another macro table. -/
def PPState.mapE {E E' : Type} (f : E → E') (s : PPState E) : PPState E' :=
  ⟨f s.env, s.ifTrue, s.ifHit, s.packStack, s.packing, s.packList⟩

/-- `sem'` on the image of `f` does what `sem` does, as long as `P` holds, which is kept. -/
structure SemSim {E E' : Type} (sem : PPSem E) (sem' : PPSem E') (f : E → E') (P : E → Prop) : Prop where
  expand : ∀ s l, P s → sem'.expand (f s) l = sem.expand s l
  cond : ∀ s r, P s → sem'.cond (f s) r = sem.cond s r
  define : ∀ s n r, P s → f (sem.define s n r) = sem'.define (f s) n r ∧ P (sem.define s n r)
  undef : ∀ s n, P s → f (sem.undef s n) = sem'.undef (f s) n ∧ P (sem.undef s n)

section
variable {E E' : Type} {sem : PPSem E} {sem' : PPSem E'} {f : E → E'} {P : E → Prop}

theorem packEffect_map (f : E → E') (i : Nat) (s : PPState E) (b : Bool) (pp : Option Str) (v : Option Nat)
    (id : Option Str) : packEffect i (s.mapE f) b pp v id = (packEffect i s b pp v id).map (PPState.mapE f) := by
  obtain ⟨env, t, h, st, p, l⟩ := s
  simp only [packEffect, PPState.mapE]
  by_cases h1 : pp = some c%"push"
  · simp only [h1, if_true]; rfl
  · simp only [h1, if_false]
    cases b with
    | false => rfl
    | true =>
      simp only [if_true]
      have key : ∀ o : Except PyErr (List (Option Nat × Option Str)),
          (match o with
            | .error e => .error e
            | .ok st =>
              match v with
              | some v => .ok ⟨f env, t, h, st, some v, l ++ [(i, some v)]⟩
              | none =>
                match st.getLast? with
                | none => .error .indexError
                | some (p, _) => .ok ⟨f env, t, h, st, p, l ++ [(i, p)]⟩) =
          Except.map (PPState.mapE f) (match o with
            | .error e => .error e
            | .ok st =>
              match v with
              | some v => .ok ⟨env, t, h, st, some v, l ++ [(i, some v)]⟩
              | none =>
                match st.getLast? with
                | none => .error .indexError
                | some (p, _) => .ok ⟨env, t, h, st, p, l ++ [(i, p)]⟩) := by
        intro o
        cases o with
        | error e => rfl
        | ok st =>
          cases v with
          | some v => rfl
          | none =>
            simp only
            generalize st.getLast? = q
            cases q with
            | none => rfl
            | some q => rfl
      exact key _

theorem packEffect_env {i : Nat} {s s' : PPState E} {b : Bool} {pp : Option Str} {v : Option Nat}
    {id : Option Str} (h : packEffect i s b pp v id = .ok s') : s'.env = s.env := by
  unfold packEffect at h
  split at h
  · cases h; rfl
  · split at h
    · simp only at h
      split at h
      · cases h
      · split at h
        · cases h; rfl
        · split at h
          · cases h
          · cases h; rfl
    · cases h; rfl

theorem doPack_env {i : Nat} {s s' : PPState E} {t : Str} (h : doPack i s t = .ok s') : s'.env = s.env :=
  packEffect_env h

/-- Applied to the outcome of a step. -/
def mapStep {α : Type} (f : E → E') (r : Except PyErr (PPState E × α)) : Except PyErr (PPState E' × α) :=
  r.map (fun p => (p.1.mapE f, p.2))

theorem ppStep_semSim (hs : SemSim sem sem' f P) (i : Nat) (s : PPState E) (l : Line) (hp : P s.env) :
    ppStep sem' i (s.mapE f) l = mapStep f (ppStep sem i s l) ∧
      ∀ s' o, ppStep sem i s l = .ok (s', o) → P s'.env := by
  obtain ⟨env, t, h, st, p, pl⟩ := s
  simp only at hp
  cases l with
  | code l =>
    cases t with
    | nil => exact ⟨rfl, by intro s' o h; cases h⟩
    | cons a t =>
      cases a with
      | false => exact ⟨rfl, by intro s' o h; cases h; exact hp⟩
      | true =>
        refine ⟨?_, by intro s' o h; cases h; exact hp⟩
        simp [ppStep, PPState.mapE, mapStep, Except.map, hs.expand env l hp]
  | dif r =>
    refine ⟨?_, by intro s' o h; cases h; exact hp⟩
    simp [ppStep, PPState.mapE, mapStep, Except.map, hs.cond env r hp]
  | delif r =>
    cases h with
    | nil => exact ⟨rfl, by intro s' o h; cases h⟩
    | cons a h =>
      cases t with
      | nil => exact ⟨rfl, by intro s' o h; cases h⟩
      | cons c t =>
        refine ⟨?_, by intro s' o h; cases h; exact hp⟩
        simp [ppStep, PPState.mapE, mapStep, Except.map, hs.cond env r hp]
  | delse =>
    cases h with
    | nil => exact ⟨rfl, by intro s' o h; cases h⟩
    | cons a h =>
      cases t with
      | nil => exact ⟨rfl, by intro s' o h; cases h⟩
      | cons c t => exact ⟨rfl, by intro s' o h; cases h; exact hp⟩
  | dendif =>
    cases h with
    | nil => exact ⟨rfl, by intro s' o h; cases h⟩
    | cons a h =>
      cases t with
      | nil => exact ⟨rfl, by intro s' o h; cases h⟩
      | cons c t => exact ⟨rfl, by intro s' o h; cases h; exact hp⟩
  | define n r =>
    cases t with
    | nil => exact ⟨rfl, by intro s' o h; cases h⟩
    | cons a t =>
      cases a with
      | false => exact ⟨rfl, by intro s' o h; cases h; exact hp⟩
      | true =>
        refine ⟨?_, by intro s' o h; cases h; exact (hs.define env n _ hp).2⟩
        simp only [ppStep, PPState.mapE, mapStep, Except.map, hs.expand env r hp, (hs.define env n _ hp).1]
  | undef n =>
    cases t with
    | nil => exact ⟨rfl, by intro s' o h; cases h⟩
    | cons a t =>
      cases a with
      | false => exact ⟨rfl, by intro s' o h; cases h; exact hp⟩
      | true =>
        refine ⟨?_, by intro s' o h; cases h; exact (hs.undef env n hp).2⟩
        simp only [ppStep, PPState.mapE, mapStep, Except.map, (hs.undef env n hp).1]
  | pragma r =>
    cases t with
    | nil => exact ⟨rfl, by intro s' o h; cases h⟩
    | cons a t =>
      cases a with
      | false => exact ⟨rfl, by intro s' o h; cases h; exact hp⟩
      | true =>
        simp only [ppStep, PPState.mapE, mapStep, hs.expand env r hp]
        generalize (if t.all id = true then sem.expand env r else r) = r'
        cases packMatch r' with
        | none => exact ⟨rfl, by intro s' o h; cases h; exact hp⟩
        | some txt =>
          have e := packEffect_map f i ⟨env, true :: t, h, st, p, pl⟩
            (decide (((splitOnC ',' txt).map strip).head? = some c%"pop"))
            (packOpts ((splitOnC ',' txt).map strip) (none, none, none)).1
            (packOpts ((splitOnC ',' txt).map strip) (none, none, none)).2.1
            (packOpts ((splitOnC ',' txt).map strip) (none, none, none)).2.2
          have e' : doPack i ⟨f env, true :: t, h, st, p, pl⟩ txt =
              (doPack i ⟨env, true :: t, h, st, p, pl⟩ txt).map (PPState.mapE f) := e
          simp only [e']
          cases hd : doPack i ⟨env, true :: t, h, st, p, pl⟩ txt with
          | error e => exact ⟨rfl, by intro s' o h; cases h⟩
          | ok s1 =>
            refine ⟨rfl, ?_⟩
            intro s' o h
            cases h
            rw [doPack_env hd]
            exact hp
  | badName => exact ⟨rfl, by intro s' o h; cases h⟩
  | other => exact ⟨rfl, by intro s' o h; cases h; exact hp⟩

theorem ppRun_semSim (hs : SemSim sem sem' f P) : ∀ (ls : List Line) (i : Nat) (s : PPState E), P s.env →
    ppRun sem' i (s.mapE f) ls = mapStep f (ppRun sem i s ls) ∧
      ∀ s' os, ppRun sem i s ls = .ok (s', os) → P s'.env
  | [], i, s, hp => ⟨rfl, by intro s' os h; cases h; exact hp⟩
  | l :: ls, i, s, hp => by
    obtain ⟨h1, h2⟩ := ppStep_semSim hs i s l hp
    simp only [ppRun, h1]
    cases e : ppStep sem i s l with
    | error e => exact ⟨rfl, by intro s' o h; cases h⟩
    | ok r =>
      obtain ⟨s1, o⟩ := r
      obtain ⟨h3, h4⟩ := ppRun_semSim hs ls (i + 1) s1 (h2 s1 o e)
      simp only [mapStep, Except.map] at h3 ⊢
      rw [h3]
      cases e2 : ppRun sem (i + 1) s1 ls with
      | error e => exact ⟨rfl, by intro s' o h; cases h⟩
      | ok r =>
        obtain ⟨s2, os⟩ := r
        refine ⟨rfl, ?_⟩
        intro s' os' h
        cases h
        exact h4 s2 os e2

theorem preprocess_semSim (hs : SemSim sem sem' f P) (env : E) (hp : P env) (text : Str) :
    preprocess sem' (f env) text = mapStep f (preprocess sem env text) ∧
      ∀ s' out, preprocess sem env text = .ok (s', out) → P s'.env := by
  obtain ⟨h1, h2⟩ := ppRun_semSim hs ((splitOnC '\n' (joinLines text)).map classify) 0 (PPState.init env) hp
  unfold preprocess
  have e : PPState.init (f env) = (PPState.init env).mapE f := rfl
  rw [e, h1]
  cases e2 : ppRun sem 0 (PPState.init env) ((splitOnC '\n' (joinLines text)).map classify) with
  | error e => exact ⟨rfl, by intro s' o h; cases h⟩
  | ok r =>
    obtain ⟨s2, os⟩ := r
    refine ⟨rfl, ?_⟩
    intro s' os' h
    cases h
    exact h2 s2 os e2

end

/-- Processing on the definition tables is processing on the macro tables in them. -/
theorem world_sim (w : Setup) : SemSim w.sem (macroSem w.orc w.pyo) menvOf MacOk where
  expand _ _ _ := rfl
  cond _ _ _ := rfl
  define _ n r h := menv_define h w.ev n r
  undef _ n h := menv_undef h n

end Pyclib
