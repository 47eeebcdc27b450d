import Verif.Props.Session
/-
Computable checks for the conditions of `Spec.Classes`, `Spec.Calls`, `Spec.Library` and `Spec.Session`, with
proofs that they are sufficient.
-/
namespace Pyclib
open Spec

/-! ### C types -/

/-- The leading array brackets of a list of modifiers. -/
def arrRun : List CMod → List (Option Int) × List CMod
  | .arr [n] :: ms => (n :: (arrRun ms).1, (arrRun ms).2)
  | ms => ([], ms)

theorem arrRun_eq (ms : List CMod) : ms = (arrRun ms).1.map (fun n => .arr [n]) ++ (arrRun ms).2 := by
  induction ms using arrRun.induct with
  | case1 n ms ih => rw [arrRun]; simpa using ih
  | case2 ms h => rw [arrRun]; · simp
                  · exact h

/-- The C type of a parameter list, given that of each parameter. -/
def denPs (f : CType → Option CTy) : List Param → Option (List (Option Str × CTy))
  | [] => some []
  | (n, t, _) :: ps =>
    match f t, denPs f ps with
    | some u, some cs => some ((n, u) :: cs)
    | _, _ => none

/-- The C type that modifiers make of `t`. -/
def denB : Nat → CTy → List CMod → Option CTy
  | 0, t, ms => match ms with | [] => some t | _ :: _ => none
  | n + 1, t, ms =>
    match ms with
    | [] => some t
    | .sym c :: ms => if c = c%"*" then denB n (.ptr t) ms else if c = c%"&" then denB n (.ref t) ms else denB n t ms
    | .fn ps :: ms =>
      match denPs (fun p => denB n (.base p.spec) p.mods) ps with
      | some cs => denB n (.fn cs t) ms
      | none => none
    | .arr l :: ms =>
      match arrRun (.arr l :: ms) with
      | (d :: ds, rest) => if rest.head?.any (fun m => match m with | .arr _ => true | _ => false) then none
          else denB n (arrsOf (d :: ds) t) rest
      | ([], _) => none

theorem denPs_ok {f : CType → Option CTy} (hf : ∀ t u, f t = some u → DenMods (.base t.spec) t.mods u) :
    ∀ (ps : List Param) (cs : List (Option Str × CTy)), denPs f ps = some cs → DenParams ps cs
  | [], cs, h => by cases h; exact .nil
  | (n, t, v) :: ps, cs, h => by
    unfold denPs at h
    cases ht : f t with
    | none => simp [ht] at h
    | some u =>
      cases hp : denPs f ps with
      | none => simp [ht, hp] at h
      | some ds =>
        simp only [ht, hp, Option.some.injEq] at h
        subst h
        exact .cons _ _ _ _ _ _ (hf _ _ ht) (denPs_ok hf _ _ hp)

theorem denB_ok (n : Nat) : ∀ (t : CTy) (ms : List CMod) (u : CTy), denB n t ms = some u → DenMods t ms u := by
  induction n with
  | zero => intro t ms u h; cases ms <;> simp only [denB] at h <;> cases h; exact .nil _
  | succ n ih =>
    intro t ms u h
    cases ms with
    | nil => simp only [denB] at h; cases h; exact .nil _
    | cons m ms =>
      cases m with
      | sym c =>
        simp only [denB] at h
        by_cases h1 : c = c%"*"
        · rw [if_pos h1] at h; subst h1; exact .ptr _ _ _ (ih _ _ _ h)
        · rw [if_neg h1] at h
          by_cases h2 : c = c%"&"
          · rw [if_pos h2] at h; subst h2; exact .ref _ _ _ (ih _ _ _ h)
          · rw [if_neg h2] at h; exact .conv _ _ _ _ ⟨h1, h2⟩ (ih _ _ _ h)
      | fn ps =>
        simp only [denB] at h
        cases hp : denPs (fun p => denB n (.base p.spec) p.mods) ps with
        | none => rw [hp] at h; cases h
        | some cs => rw [hp] at h; exact .fn _ _ _ _ _ (denPs_ok (fun t u h => ih _ _ _ h) _ _ hp) (ih _ _ _ h)
      | arr l =>
        simp only [denB] at h
        have he := arrRun_eq (.arr l :: ms)
        generalize arrRun (.arr l :: ms) = r at h he
        obtain ⟨_ | ⟨d, ds⟩, rest⟩ := r
        · cases h
        · simp only at h he
          split at h
          · cases h
          · rename_i hh
            rw [he]
            refine .arrs d ds t rest u (fun l' hl => ?_) (ih _ _ _ h)
            rw [hl] at hh
            exact hh rfl

/-- `f` on each parameter type. -/
def expPs (f : CTy → Option CTy) : List (Option Str × CTy) → Option (List (Option Str × CTy))
  | [] => some []
  | (n, u) :: cs =>
    match f u, expPs f cs with
    | some v, some ds => some ((n, v) :: ds)
    | _, _ => none

/-- The C type with typedef names replaced, at most `k` deep; the first number is a bound on the size of the type. -/
def expandB (cfg : Cfg) (s : Store DefVal) : Nat → Nat → CTy → Option CTy
  | 0, _, _ => none
  | n + 1, k, .base b =>
    if isFund cfg b then some (.base (dropSigned b)) else
    match k, dget (s.defs .types) b with
    | k + 1, some (.type t) =>
      match denB n (.base t.spec) t.mods with
      | some u => expandB cfg s n k u
      | none => none
    | _, _ => none
  | n + 1, k, .ptr u => (expandB cfg s n k u).map .ptr
  | n + 1, k, .ref u => (expandB cfg s n k u).map .ref
  | n + 1, k, .arr d u => (expandB cfg s n k u).map (.arr d)
  | n + 1, k, .fn cs u =>
    match expPs (expandB cfg s n k) cs, expandB cfg s n k u with
    | some ds, some v => some (.fn ds v)
    | _, _ => none

theorem expPs_ok {cfg : Cfg} {s : Store DefVal} {k : Nat} {f : CTy → Option CTy}
    (hf : ∀ u v, f u = some v → Expand cfg (TypedefOf s) k u v) :
    ∀ (cs ds : List (Option Str × CTy)), expPs f cs = some ds → ExpandParams cfg (TypedefOf s) k cs ds
  | [], ds, h => by cases h; exact .nil _
  | (n, u) :: cs, ds, h => by
    unfold expPs at h
    cases hu : f u with
    | none => simp [hu] at h
    | some v =>
      cases hp : expPs f cs with
      | none => simp [hu, hp] at h
      | some es =>
        simp only [hu, hp, Option.some.injEq] at h
        subst h
        exact .cons _ _ _ _ _ _ (hf _ _ hu) (expPs_ok hf _ _ hp)

theorem expandB_ok {cfg : Cfg} {s : Store DefVal} (n : Nat) :
    ∀ (k : Nat) (u v : CTy), expandB cfg s n k u = some v → Expand cfg (TypedefOf s) k u v := by
  induction n with
  | zero => intro k u v h; cases h
  | succ n ih =>
    intro k u v h
    cases u with
    | base b =>
      simp only [expandB] at h
      cases hf : isFund cfg b with
      | true => rw [hf] at h; simp at h; subst h; exact .fund _ _ ((isFund_iff _ _).1 hf)
      | false =>
        simp only [hf, Bool.false_eq_true, if_false] at h
        cases k with
        | zero => cases h
        | succ k =>
          cases hd : dget (s.defs .types) b with
          | none => rw [hd] at h; cases h
          | some d =>
            rw [hd] at h
            cases d <;> try cases h
            rename_i t
            simp only at h
            cases hu : denB n (.base t.spec) t.mods with
            | none => rw [hu] at h; cases h
            | some u =>
              rw [hu] at h
              exact .name _ _ _ _ (by rw [← isFund_iff]; simp [hf]) ⟨t, hd, denB_ok _ _ _ _ hu⟩ (ih _ _ _ h)
    | ptr u => simp only [expandB, Option.map_eq_some_iff] at h; obtain ⟨w, h, rfl⟩ := h; exact .ptr _ _ _ (ih _ _ _ h)
    | ref u => simp only [expandB, Option.map_eq_some_iff] at h; obtain ⟨w, h, rfl⟩ := h; exact .ref _ _ _ (ih _ _ _ h)
    | arr d u => simp only [expandB, Option.map_eq_some_iff] at h; obtain ⟨w, h, rfl⟩ := h; exact .arr _ _ _ _ (ih _ _ _ h)
    | fn cs u =>
      simp only [expandB] at h
      cases hc : expPs (expandB cfg s n k) cs with
      | none => simp [hc] at h
      | some ds =>
        cases hv : expandB cfg s n k u with
        | none => simp [hc, hv] at h
        | some w =>
          simp only [hc, hv, Option.some.injEq] at h
          subst h
          exact .fn _ _ _ _ _ (expPs_ok (fun u v => ih _ _ _) _ _ hc) (ih _ _ _ hv)

/-- The C type of a recorded `Type`; `n` bounds sizes and depths. -/
def meansB (cfg : Cfg) (s : Store DefVal) (n : Nat) (t : CType) : Option CTy :=
  match denB n (.base t.spec) t.mods with
  | some u => expandB cfg s n n u
  | none => none

theorem meansB_ok {cfg : Cfg} {s : Store DefVal} {n : Nat} {t : CType} {v : CTy} (h : meansB cfg s n t = some v) :
    CMeaning cfg s t v := by
  unfold meansB at h
  cases hu : denB n (.base t.spec) t.mods with
  | none => rw [hu] at h; cases h
  | some u => rw [hu] at h; exact ⟨u, n, denB_ok _ _ _ _ hu, expandB_ok _ _ _ _ h⟩

/-- The type `void`. -/
def isVoidB : CTy → Bool
  | .base s => s == c%"void"
  | _ => false

theorem isVoidB_ok {v : CTy} (h : isVoidB v = false) : v ≠ .base c%"void" := by
  rintro rfl
  cases h

/-- A check for `Buildable`; `n` bounds the size. -/
def buildB (types : Dict Str Str) (s : Store DefVal) : Nat → CTy → Bool
  | 0, _ => false
  | n + 1, v =>
    match v with
    | .base b => dhas types b || b == c%"void" || startsWith b c%"enum " ||
        (startsWith b c%"struct " && dhas (s.defs .structs) (b.drop 7)) ||
        (startsWith b c%"union " && dhas (s.defs .unions) (b.drop 6))
    | .ptr (.fn cs v) => buildB types s n v && cs.all (fun x => !isVoidB x.2 && buildB types s n x.2)
    | .ptr v => buildB types s n v
    | .ref v => buildB types s n v
    | .arr (some d) v => (decide (0 ≤ d) && !isVoidB v || decide (d = -1)) && buildB types s n v
    | .arr none _ => false
    | .fn _ _ => false

theorem startsWith_drop {s p : Str} (h : startsWith s p = true) : s = p ++ s.drop p.length := by
  obtain ⟨r, rfl⟩ := (startsWith_iff _ _).1 h
  simp

theorem buildB_ok {types : Dict Str Str} {s : Store DefVal} (n : Nat) :
    ∀ v, buildB types s n v = true → Buildable types (DefinedTag s) v := by
  induction n with
  | zero => intro v h; cases h
  | succ n ih =>
    intro v h
    cases v with
    | base b =>
      simp only [buildB, Bool.or_eq_true, Bool.and_eq_true, beq_iff_eq] at h
      rcases h with (((h | h) | h) | h) | h
      · unfold dhas at h
        cases hd : dget types b with
        | none => rw [hd] at h; cases h
        | some p => exact .prim _ _ hd
      · subst h; exact .void
      · rw [startsWith_drop h]; exact .enum _
      · rw [startsWith_drop h.1]; exact .struct _ h.2
      · rw [startsWith_drop h.1]; exact .union _ h.2
    | ptr v =>
      cases v with
      | fn cs v =>
        simp only [buildB, Bool.and_eq_true, List.all_eq_true, Bool.not_eq_true'] at h
        exact .fnptr _ _ (ih _ h.1) (fun x hx => isVoidB_ok (h.2 x hx).1) (fun x hx => ih _ (h.2 x hx).2)
      | _ => exact .ptr _ (ih _ h)
    | ref v => exact .ref _ (ih _ h)
    | arr d v =>
      cases d with
      | none => cases h
      | some d =>
        simp only [buildB, Bool.and_eq_true, Bool.or_eq_true, decide_eq_true_eq, Bool.not_eq_true'] at h
        rcases h.1 with h1 | h1
        · exact .arr _ _ h1.1 (isVoidB_ok h1.2) (ih _ h.2)
        · subst h1; exact .incomplete _ (ih _ h.2)
    | fn _ _ => cases h

/-! ### Types of definitions -/

/-- A check for `FiniteParams`. -/
def finiteB (cfg : Cfg) (tm : Dict Str CType) : Nat → CType → Bool
  | 0, _ => false
  | n + 1, t => t.quals.length == 1 + t.mods.length &&
    match evalType cfg tm t with
    | .error _ => true
    | .ok r => r.mods.all (fun m => match m with | .fn ps => ps.all (fun p => finiteB cfg tm n p.2.1) | _ => true)

theorem finiteB_ok {e : CtEnv} (hm : MapMatch e.tm) (n : Nat) :
    ∀ t, finiteB e.cfg e.tm n t = true → FiniteParams e t := by
  induction n with
  | zero => intro t h; cases h
  | succ n ih =>
    intro t h
    simp only [finiteB, Bool.and_eq_true, beq_iff_eq] at h
    refine .mk t h.1 (fun r ps p hr hf hp => ?_)
    have h2 := h.2
    rw [(C01_result _ _ _ _ hm h.1).2 ⟨r, hr, rfl⟩] at h2
    simp only [List.all_eq_true] at h2
    have := h2 _ hf
    simp only [List.all_eq_true] at this
    exact ih _ (this p hp)

/-- A check on a type and all parameter types inside. -/
def insideB (f : CType → Bool) : Nat → CType → Bool
  | 0, _ => false
  | n + 1, t => f t && t.mods.all (fun m => match m with | .fn ps => ps.all (fun p => insideB f n p.2.1) | _ => true)

theorem insideB_ok {f : CType → Bool} (n : Nat) : ∀ t u, insideB f n t = true → Inside u t → f u = true := by
  induction n with
  | zero => intro t u h; cases h
  | succ n ih =>
    intro t u h hu
    simp only [insideB, Bool.and_eq_true, List.all_eq_true] at h
    cases hu with
    | refl => exact h.1
    | param _ _ ps p hf hp hi =>
      have := h.2 _ hf
      simp only [List.all_eq_true] at this
      exact ih _ _ (this p hp) hi

/-- A check for `ShapesOk`. -/
def shapesB (cfg : Cfg) (tm : Dict Str CType) (n : Nat) (shared : Bool) (t : CType) : Bool :=
  shapeB cfg tm shared t &&
  t.mods.all (fun m => match m with | .fn ps => ps.all (fun p => insideB (shapeB cfg tm true) n p.2.1) | _ => true)

theorem shapesB_ok {cfg : Cfg} {s : Store DefVal} (hm : MapMatch (typeTable (s.defs .types))) {n : Nat} {shared : Bool} {t : CType}
    (h : shapesB cfg (typeTable (s.defs .types)) n shared t = true) : ShapesOk cfg s shared t := by
  simp only [shapesB, Bool.and_eq_true, List.all_eq_true] at h
  refine ⟨shapeB_ok hm h.1, fun ps p u hf hp hi => ?_⟩
  have := h.2 _ hf
  simp only [List.all_eq_true] at this
  exact shapeB_ok hm (insideB_ok _ _ _ (this p hp) hi)

section
variable (cfg : Cfg) (types : Dict Str Str) (s : Store DefVal) (n : Nat)

/-- A check for `AskOk`, giving the C type. -/
def askB (t : CType) : Option CTy :=
  match meansB cfg s n t with
  | none => none
  | some v =>
    if shapesB cfg (typeTable (s.defs .types)) n false t && finiteB cfg (typeTable (s.defs .types)) n t && buildB types s n v
    then some v else none

/-- The parameter of `f(void)`. -/
def voidParamB (p : Param) : Bool := p.2.1.spec == c%"void" && p.2.1.mods.isEmpty

/-- A check for `ParamsOk`, giving the C parameters. -/
def paramsB : List Param → Option (List (Option Str × CTy))
  | [] => some []
  | p :: ps =>
    if voidParamB p then paramsB ps else
    match askB cfg types s n p.2.1, paramsB ps with
    | some v, some cs => if isVoidB v then none else some ((p.1, v) :: cs)
    | _, _ => none

/-- A member of a struct or union, as `LibOk` wants it. -/
def memberB (m : Member) : Bool :=
  match askB cfg types s n m.type with
  | none => false
  | some v => !isVoidB v &&
    match m.name with
    | some k => !startsWith k c%"anon_member"
    | none => match v with
      | .base b => startsWith b c%"struct " || startsWith b c%"union "
      | _ => false

/-- A check for `LibOk`. -/
def libOkB : Bool :=
  [c%"struct", c%"union", c%"enum"].all (fun w => !decide (w ∈ fundWords cfg)) &&
  types.all (fun p => !startsWith p.1 c%"struct " && !startsWith p.1 c%"union ") &&
  (s.defs .types).all (fun p => decide (' ' ∈ p.1) ||
    match p.2 with
    | .type t => shapesB cfg (typeTable (s.defs .types)) n true t && t.quals.getLast? != some none
    | _ => true) &&
  [Kind.structs, .unions].all (fun k => (s.defs k).all (fun p =>
    match p.2 with
    | .compound ms _ => ms.all (memberB cfg types s n)
    | _ => true))

/-- A check for `Usable`. -/
def usableB : Kind → Str → Bool
  | .functions, f =>
    match dget (s.defs .functions) f with
    | some (.func (.func r ps _)) =>
      [c%"__stdcall", c%"__cdecl"].all (fun c => r.spec != c && r.mods.all (fun m => match m with | .sym d => d != c | _ => true)) &&
      (askB cfg types s n r).isSome && (paramsB cfg types s n ps).isSome
    | _ => true
  | .types, k => decide (' ' ∈ k) ||
    match dget (s.defs .types) k with
    | some (.type t) => (askB cfg types s n t).isSome
    | _ => true
  | _, _ => true

/-- A check for `AskAgain`. -/
def againB (t : CType) : Bool :=
  t.mods.all (fun m => match m with | .arr _ => false | _ => true) && shapesB cfg (typeTable (s.defs .types)) n true t

/-- A check for `FairFn` and `AskAgain` for all parameters, giving the C parameters. -/
def fairFnB (f : Str) : Option (List (Option Str × CTy)) :=
  match dget (s.defs .functions) f with
  | some (.func (.func _ ps _)) =>
    if attrOrder.all (fun k => usableB cfg types s n k f) && !dhas (s.defs .values) f &&
        ps.all (fun p => p.2.2.isNone && againB cfg s n p.2.1) then
      match paramsB cfg types s n ps with
      | some cs => if decide ((cs.filterMap (·.1)).Nodup) then some cs else none
      | none => none
    else none
  | _ => none

/-- A check for `FairUse`. -/
def fairB {A : Type} : Use A → Bool
  | .look (.call k m) => usableB cfg types s n k m &&
      (!(decide (k ∈ [Kind.structs, .unions, .enums])) || dhas (s.defs k) m || !dhas (s.defs .types) m)
  | .look (.attr m) => attrOrder.all (fun k => usableB cfg types s n k m)
  | .invoke f args kws =>
    match fairFnB cfg types s n f with
    | some cs => decide (args.length ≤ cs.length) && decide ((kws.map (·.1)).Nodup) &&
        kws.all (fun p => cs.any (fun x => decide (x.1 = some p.1)))
    | none => false
  | .argType f k => (fairFnB cfg types s n f).isSome && match k with | .int i => decide (0 ≤ i) | .str _ => true | .other => false

end

section
variable {cfg : Cfg} {types : Dict Str Str} {s : Store DefVal} {n : Nat}

theorem askB_ok (hm : MapMatch (typeTable (s.defs .types))) {t : CType} {v : CTy} (h : askB cfg types s n t = some v) :
    AskOk cfg types s t v := by
  unfold askB at h
  cases hv : meansB cfg s n t with
  | none => rw [hv] at h; cases h
  | some w =>
    rw [hv] at h
    simp only at h
    split at h
    · rename_i hc
      cases h
      simp only [Bool.and_eq_true] at hc
      exact ⟨shapesB_ok hm hc.1.1, finiteB_ok (e := ⟨cfg, s.defs, types⟩) hm _ _ hc.1.2, meansB_ok hv, buildB_ok _ _ hc.2⟩
    · cases h

theorem voidParamB_iff {p : Param} : voidParamB p = true ↔ VoidParam p := by
  unfold voidParamB VoidParam
  simp [List.isEmpty_iff]

theorem paramsB_ok (hm : MapMatch (typeTable (s.defs .types))) : ∀ (ps : List Param) (cs : List (Option Str × CTy)),
    paramsB cfg types s n ps = some cs → ParamsOk cfg types s ps cs
  | [], cs, h => by cases h; exact .nil
  | p :: ps, cs, h => by
    unfold paramsB at h
    split at h
    · rename_i hv
      exact .void _ _ _ (voidParamB_iff.1 hv) (paramsB_ok hm _ _ h)
    · rename_i hv
      cases ha : askB cfg types s n p.2.1 with
      | none => simp [ha] at h
      | some v =>
        cases hp : paramsB cfg types s n ps with
        | none => simp [ha, hp] at h
        | some ds =>
          simp only [ha, hp] at h
          split at h
          · cases h
          · rename_i h0
            cases h
            exact .cons _ _ _ _ (fun h => hv (voidParamB_iff.2 h)) (askB_ok hm ha) (isVoidB_ok (by simpa using h0)) (paramsB_ok hm _ _ hp)

theorem libOkB_ok (hm : MapMatch (typeTable (s.defs .types))) (h : libOkB cfg types s n = true) : LibOk cfg types s := by
  simp only [libOkB, Bool.and_eq_true] at h
  obtain ⟨⟨⟨h1, h2⟩, h3⟩, h4⟩ := h
  simp only [List.all_eq_true] at h1 h2 h3 h4
  refine ⟨fun w hw => ?_, fun u tag => ?_, fun k t hk ht => ?_, fun u tag ms pack m hd hmem => ?_⟩
  · rw [fundWord_words]
    simpa using h1 w hw
  · cases hd : dget types (compWord u ++ ' ' :: tag) with
    | none => rfl
    | some p =>
      have := h2 _ (dget_some_mem hd)
      cases u <;> simp [compWord, startsWith] at this
  · have := h3 _ (dget_some_mem ht)
    simp only [Bool.or_eq_true, decide_eq_true_eq, Bool.and_eq_true, bne_iff_ne, ne_eq] at this
    rcases this with h | ⟨h, h'⟩
    · exact absurd h (name_not_tag hk)
    · refine ⟨shapesB_ok hm h, fun q hq hn => ?_⟩
      subst hn
      exact h' hq
  · have hk : compKind u ∈ [Kind.structs, .unions] := by cases u <;> simp [compKind]
    have := h4 _ hk _ (dget_some_mem hd)
    simp only [List.all_eq_true] at this
    have := this m hmem
    unfold memberB at this
    cases ha : askB cfg types s n m.type with
    | none => rw [ha] at this; cases this
    | some v =>
      rw [ha] at this
      simp only [Bool.and_eq_true, Bool.not_eq_true'] at this
      obtain ⟨h5, h6⟩ := this
      have hask := askB_ok hm ha
      refine ⟨hask.shapes, hask.finite, v, hask.means, hask.build, isVoidB_ok h5, fun hn => ?_, fun k j hn => ?_⟩
      · rw [hn] at h6
        cases v <;> simp only [Bool.false_eq_true, Bool.or_eq_true] at h6
        rename_i b
        rcases h6 with h | h
        · exact ⟨false, b.drop 7, congrArg CTy.base (startsWith_drop h)⟩
        · exact ⟨true, b.drop 6, congrArg CTy.base (startsWith_drop h)⟩
      · rw [hn] at h6
        rintro rfl
        simp only [Bool.not_eq_true'] at h6
        rw [(startsWith_iff _ _).2 ⟨_, rfl⟩] at h6
        cases h6

theorem usableB_ok (hm : MapMatch (typeTable (s.defs .types))) {k : Kind} {m : Str} (h : usableB cfg types s n k m = true) :
    Usable cfg types s k m := by
  cases k <;> try trivial
  · intro t hi ht
    simp only [usableB, Bool.or_eq_true, decide_eq_true_eq, ht] at h
    have h := h.resolve_left (name_not_tag hi)
    cases ha : askB cfg types s n t with
    | none => rw [ha] at h; cases h
    | some v => exact ⟨v, askB_ok hm ha⟩
  · intro r ps q hd
    simp only [usableB, hd, Bool.and_eq_true] at h
    obtain ⟨⟨h1, h2⟩, h3⟩ := h
    refine ⟨fun c hc => ?_, ?_, ?_⟩
    · simp only [List.all_eq_true] at h1
      have := h1 c hc
      simp only [Bool.and_eq_true, bne_iff_ne, ne_eq, List.all_eq_true] at this
      refine ⟨this.1, fun hmem => ?_⟩
      have := this.2 _ hmem
      simp at this
    · cases ha : askB cfg types s n r with
      | none => rw [ha] at h2; cases h2
      | some v => exact ⟨v, askB_ok hm ha⟩
    · cases ha : paramsB cfg types s n ps with
      | none => rw [ha] at h3; cases h3
      | some v => exact ⟨v, paramsB_ok hm _ _ ha⟩

/-- All functions and typedefs are usable. -/
def allUsableB (cfg : Cfg) (types : Dict Str Str) (s : Store DefVal) (n : Nat) : Bool :=
  (s.defs .functions).all (fun p => usableB cfg types s n .functions p.1) &&
  (s.defs .types).all (fun p => usableB cfg types s n .types p.1)

theorem allUsableB_ok (h : allUsableB cfg types s n = true) (k : Kind) (m : Str) : usableB cfg types s n k m = true := by
  simp only [allUsableB, Bool.and_eq_true, List.all_eq_true] at h
  cases k <;> try rfl
  · cases hd : dget (s.defs .types) m with
    | none => simp [usableB, hd]
    | some d => exact h.2 _ (dget_some_mem hd)
  · cases hd : dget (s.defs .functions) m with
    | none => simp [usableB, hd]
    | some d => exact h.1 _ (dget_some_mem hd)

theorem againB_ok (hm : MapMatch (typeTable (s.defs .types))) {t : CType} (h : againB cfg s n t = true) : AskAgain cfg s t := by
  simp only [againB, Bool.and_eq_true, List.all_eq_true] at h
  exact ⟨fun d hd => (by have := h.1 _ hd; cases this), shapesB_ok hm h.2⟩

theorem nodup_names {α : Type} : ∀ {l : List (Option Str × α)}, (l.filterMap (·.1)).Nodup →
    ∀ (i j : Nat) k v w, l[i]? = some (some k, v) → l[j]? = some (some k, w) → i = j
  | [], _, i, j, k, v, w, hi, _ => by simp at hi
  | (o, x) :: l, hn, i, j, k, v, w, hi, hj => by
    have hrest : (l.filterMap (·.1)).Nodup := by
      cases o with
      | none => simpa using hn
      | some y => simp only [List.filterMap_cons, List.nodup_cons] at hn; exact hn.2
    have hnot : ∀ (m : Nat) z, o = some k → l[m]? = some (some k, z) → False := by
      rintro m z rfl hz
      simp only [List.filterMap_cons, List.nodup_cons] at hn
      exact hn.1 (List.mem_filterMap.2 ⟨_, List.mem_of_getElem? hz, rfl⟩)
    cases i with
    | zero =>
      cases j with
      | zero => rfl
      | succ j => simp at hi hj; exact (hnot j w hi.1 hj).elim
    | succ i =>
      cases j with
      | zero => simp at hi hj; exact (hnot i v hj.1 hi).elim
      | succ j => simp at hi hj; exact congrArg (· + 1) (nodup_names hrest i j k v w hi hj)

theorem fairFnB_ok (hm : MapMatch (typeTable (s.defs .types))) {f : Str} {cs : List (Option Str × CTy)}
    (h : fairFnB cfg types s n f = some cs) :
    ∃ ps, FairFn cfg types s f ps cs ∧ ∀ p ∈ ps, AskAgain cfg s p.2.1 := by
  unfold fairFnB at h
  cases hd : dget (s.defs .functions) f with
  | none => rw [hd] at h; cases h
  | some d =>
    rw [hd] at h
    cases d <;> try cases h
    rename_i ht
    cases ht with
    | plain t => cases h
    | func r ps q =>
      simp only at h
      split at h
      · rename_i hc
        simp only [Bool.and_eq_true, Bool.not_eq_true', List.all_eq_true] at hc
        cases hp : paramsB cfg types s n ps with
        | none => rw [hp] at h; cases h
        | some ds =>
          rw [hp] at h
          simp only at h
          split at h
          · rename_i hn
            cases h
            refine ⟨ps, ⟨⟨⟨r, q, hd⟩, paramsB_ok hm _ _ hp⟩, fun k hk => usableB_ok hm (hc.1.1 k hk), hc.1.2,
              fun p hp => ?_, nodup_names (by simpa using hn)⟩, fun p hp => againB_ok hm (hc.2 p hp).2⟩
            have := (hc.2 p hp).1
            cases h2 : p.2.2 with
            | none => rfl
            | some _ => rw [h2] at this; cases this
          · cases h
      · cases h

theorem fairB_ok {A : Type} (hm : MapMatch (typeTable (s.defs .types))) {u : Use A} (h : fairB cfg types s n u = true) :
    FairUse cfg types s u := by
  cases u with
  | look q =>
    refine .look _ ?_
    cases q with
    | call k m =>
      simp only [fairB, Bool.and_eq_true] at h
      refine ⟨usableB_ok hm h.1, fun hk hno => ?_⟩
      have h2 := h.2
      rw [hno] at h2
      have : k ∈ [Kind.structs, .unions, .enums] := by simpa using hk
      simpa [this] using h2
    | attr m =>
      simp only [fairB, List.all_eq_true] at h
      exact fun k hk => usableB_ok hm (h k hk)
  | invoke f args kws =>
    simp only [fairB] at h
    cases hf : fairFnB cfg types s n f with
    | none => rw [hf] at h; cases h
    | some cs =>
      rw [hf] at h
      simp only [Bool.and_eq_true, decide_eq_true_eq, List.all_eq_true, List.any_eq_true] at h
      obtain ⟨ps, h1, h2⟩ := fairFnB_ok hm hf
      exact .invoke f ps cs args kws h1 h.1.1 h.1.2 (fun k w hk => h.2 _ hk) (fun p hp => .inl (h2 p hp))
  | argType f k =>
    simp only [fairB, Bool.and_eq_true] at h
    cases hf : fairFnB cfg types s n f with
    | none => rw [hf] at h; cases h.1
    | some cs =>
      obtain ⟨ps, h1, h2⟩ := fairFnB_ok hm hf
      refine .argType f ps cs k h1 ?_ h2
      cases k with
      | int i =>
        have := h.2
        simp only [decide_eq_true_eq] at this
        exact .inr ⟨i.toNat, by rw [Int.toNat_of_nonneg this]⟩
      | str x => exact .inl ⟨x, rfl⟩
      | other => cases h.2

end

end Pyclib
