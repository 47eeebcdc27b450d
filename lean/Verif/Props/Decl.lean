import Verif.Proof.Decl
import Verif.Proof.Store
import Verif.Props.Types
import Verif.Props.Preproc
/-
C03 (declarators), C32-C36: declarators, enumerators, anonymous names, structs, functions and
variables.
-/
set_option linter.unusedSimpArgs false
namespace Pyclib
open Spec

/-! ### Examples used below -/

/-- Evaluation of decimal numbers, for examples. -/
def exEv : Str → PVal
  | ['2'] => .int 2
  | ['3'] => .int 3
  | ['5'] => .int 5
  | ['-', '1'] => .int (-1)
  | _ => .none

/-- A plain name. -/
def dName (n : Str) : Decl := .mk [] none [] false (.name n) false .nil []
/-- No name. -/
def dAbs : Decl := .mk [] none [] false .abs false .nil []

/-- `*(*fp[2][3])(int, char *s)` : `fp` is array 2 of array 3 of pointer to function returning
pointer. -/
def exFp : Decl :=
  .mk [] none [[c%"const"]] false
    (.center (.mk [] none [[]] false (.name c%"fp") false .nil [c%"2", c%"3"])) true
    (.cons [] c%"int" dAbs none (.cons [c%"const"] c%"char" (.mk [] none [[]] false (.name c%"s") false .nil []) none .nil))
    []

/-! ### C03 -/

/-- C03 (declarators): for every declaration, `process_type` never raises `ValueError`, and the type it
builds has one qualifier group per level, as have all parameter types inside it. -/
theorem C03_declarator (ev : Str → PVal) (tq : List Str) (tn : Str) (d : Decl) :
    procType ev tq tn d ≠ .error .valueError ∧
    ∀ n t, procType ev tq tn d = .ok (n, t) → QualsMatch t ∧ GoodMods t.mods := by
  have hd := procDecl_spec ev d
  unfold procType
  cases hp : procDecl ev d with
  | error e => have := hd.1 _ hp; subst this; simp
  | ok x =>
    obtain ⟨n, toks, quals⟩ := x
    obtain ⟨_, h2, ⟨q, r, rfl⟩, h4⟩ := hd.2 _ _ _ hp
    simp only [typeOf_ok tq tn toks q r h2]
    refine ⟨by simp, ?_⟩
    intro n' t h
    simp only [Except.ok.injEq, Prod.mk.injEq] at h
    obtain ⟨_, rfl⟩ := h
    exact ⟨by simpa [QualsMatch] using h2, h4⟩

/-- The declaration `const char * const (*fp[2][3])(int, const char *s)`. -/
example : procType exEv [c%"const"] c%"char" exFp = .ok (some c%"fp",
    ⟨c%"char", [.sym c%"*", .fn [(none, ⟨c%"int", [], [some []]⟩, none),
      (some c%"s", ⟨c%"char", [.sym c%"*"], [some [c%"const"], some []]⟩, none)], .sym c%"*",
      .arr [some 2], .arr [some 3]],
      [some [c%"const"], some [c%"const"], some [], some [], some [], some []]⟩) := by rfl

/-! ### C32 -/

theorem noArr_map_append {n n' : Option Int} {ns ns' : List (Option Int)} {ms ms' : List CMod}
    (hm : NoArrHead ms) (hm' : NoArrHead ms')
    (h : (n :: ns).map (fun n => CMod.arr [n]) ++ ms = (n' :: ns').map (fun n => CMod.arr [n]) ++ ms') :
    n = n' ∧ ns = ns' ∧ ms = ms' := by
  have key : ∀ (a b : List (Option Int)), a.map (fun n => CMod.arr [n]) ++ ms = b.map (fun n => CMod.arr [n]) ++ ms' →
      a = b ∧ ms = ms' := by
    intro a
    induction a with
    | nil =>
      intro b hb
      cases b with
      | nil => exact ⟨rfl, by simpa using hb⟩
      | cons y ys => exact absurd (by rw [List.map_nil, List.nil_append] at hb; rw [hb]; rfl) (hm [y])
    | cons x xs ih =>
      intro b hb
      cases b with
      | nil => exact absurd (by rw [List.map_nil, List.nil_append] at hb; rw [← hb]; rfl) (hm' [x])
      | cons y ys =>
        simp at hb
        obtain ⟨h1, h2⟩ := hb
        obtain ⟨h3, h4⟩ := ih ys h2
        exact ⟨by rw [h1, h3], h4⟩
  obtain ⟨h1, h2⟩ := key _ _ h
  simp at h1
  exact ⟨h1.1, h1.2, h2⟩

mutual
theorem denMods_det : {t : CTy} → {ms : List CMod} → {u : CTy} → DenMods t ms u → ∀ {v}, DenMods t ms v → u = v
  | _, _, _, .nil t, v, h => by cases h; rfl
  | _, _, _, .ptr t ms u h, v, h' => by
    generalize he : CMod.sym c%"*" :: ms = l at h'
    cases h' with
    | nil => cases he
    | ptr _ _ _ h2 => cases he; exact denMods_det h h2
    | ref => simp at he
    | conv c _ _ _ hc => simp at he; exact absurd he.1.symm hc.1
    | arrs => simp at he
    | fn => simp at he
  | _, _, _, .ref t ms u h, v, h' => by
    generalize he : CMod.sym c%"&" :: ms = l at h'
    cases h' with
    | nil => cases he
    | ptr => simp at he
    | ref _ _ _ h2 => cases he; exact denMods_det h h2
    | conv c _ _ _ hc => simp at he; exact absurd he.1.symm hc.2
    | arrs => simp at he
    | fn => simp at he
  | _, _, _, .conv c t ms u hc h, v, h' => by
    generalize he : CMod.sym c :: ms = l at h'
    cases h' with
    | nil => cases he
    | ptr => simp at he; exact absurd he.1 hc.1
    | ref => simp at he; exact absurd he.1 hc.2
    | conv c' _ _ _ hc' h2 => cases he; exact denMods_det h h2
    | arrs => simp at he
    | fn => simp at he
  | _, _, _, .arrs n ns t ms u hm h, v, h' => by
    generalize he : (n :: ns).map (fun n => CMod.arr [n]) ++ ms = l at h'
    cases h' with
    | nil => simp at he
    | ptr => simp at he
    | ref => simp at he
    | conv => simp at he
    | arrs n' ns' _ ms' _ hm' h2 =>
      obtain ⟨rfl, rfl, rfl⟩ := noArr_map_append hm hm' he
      exact denMods_det h h2
    | fn => simp at he
  | _, _, _, .fn ps cs t ms u hp h, v, h' => by
    generalize he : CMod.fn ps :: ms = l at h'
    cases h' with
    | nil => cases he
    | ptr => simp at he
    | ref => simp at he
    | conv => simp at he
    | arrs => simp at he
    | fn ps' cs' _ _ _ hp' h2 =>
      cases he
      have := denParams_det hp hp'
      subst this
      exact denMods_det h h2
theorem denParams_det : {ps : List Param} → {cs : List (Option Str × CTy)} → DenParams ps cs →
    ∀ {cs'}, DenParams ps cs' → cs = cs'
  | _, _, .nil, _, h => by cases h; rfl
  | _, _, .cons n t v ps u cs h hs, _, h' => by
    cases h' with
    | cons _ _ _ _ u' cs' h2 hs2 => rw [denMods_det h h2, denParams_det hs hs2]
end

/-- C32 (the reading is a function): a `Type` denotes at most one C type. -/
theorem C32_denotes_unique (t : CType) (u v : CTy) (hu : Denotes t u) (hv : Denotes t v) : u = v :=
  denMods_det hu hv

/-- C32 (partial: declarators with array brackets around a parenthesised array, C++ references to arrays
or functions, and calling conventions alone in front of a parenthesis are excluded, see the
counterexamples): the recorded type denotes the declared C type, under the declared name, with the type
specifier as base. -/
theorem C32_declarator_partial (ev : Str → PVal) (tq : List Str) (tn : Str) (d : Decl)
    (hc : d.ConvOk) (ha : d.ArrOk) :
    ∃ t, procType ev tq tn d = .ok (d.name, t) ∧ t.spec = tn ∧
      Denotes t (d.cty (fun x => (ev x).dim) (.base tn)) := by
  obtain ⟨⟨n, toks, quals⟩, hp⟩ := procDecl_ok ev d hc
  obtain ⟨rfl, h2, ⟨q, r, rfl⟩, h4⟩ := (procDecl_spec ev d).2 _ _ _ hp
  refine ⟨⟨tn, toks, some (tq ++ q) :: r⟩, ?_, rfl, ?_⟩
  · simp only [procType, hp, typeOf_ok tq tn toks q r h2]
  · have := den_decl ev d hc ha _ _ _ hp (.base tn) [] _ (fun l => by simp) (.nil _)
    simpa [Denotes] using this

/-- The hypotheses hold for `*(*fp[2][3])(int, char *s)`, and the type is the one C gives it. -/
example : exFp.ConvOk ∧ exFp.ArrOk ∧ exFp.cty (fun x => (exEv x).dim) (.base c%"char") =
    .arr (some 2) (.arr (some 3) (.ptr (.fn [(none, .base c%"int"), (some c%"s", .ptr (.base c%"char"))]
      (.ptr (.base c%"char"))))) := by
  refine ⟨?_, ?_, by rfl⟩
  · simp [exFp, dAbs, Decl.ConvOk, Core.ConvOk, ArgList.ConvOk]
  · simp [exFp, dAbs, Decl.ArrOk, Core.ArrOk, ArgList.ArrOk, Core.startsArr, Decl.startsArr]

/-- C32 fails for `int (x[2])[3]`: C says array 2 of array 3 of int, the recorded type denotes array 3
of array 2 of int. -/
theorem C32_counterexample_paren :
    ∃ d : Decl, d.ConvOk ∧ d.cty (fun x => (exEv x).dim) (.base c%"int") =
      .arr (some 2) (.arr (some 3) (.base c%"int")) ∧
    ∃ t, procType exEv [] c%"int" d = .ok (some c%"x", t) ∧
      Denotes t (.arr (some 3) (.arr (some 2) (.base c%"int"))) ∧
      ¬ Denotes t (.arr (some 2) (.arr (some 3) (.base c%"int"))) := by
  refine ⟨.mk [] none [] false (.center (.mk [] none [] false (.name c%"x") false .nil [c%"2"])) false .nil [c%"3"],
    by simp [Decl.ConvOk, Core.ConvOk], by rfl,
    ⟨c%"int", [.arr [some 3], .arr [some 2]], [some [], some [], some []]⟩, by rfl, ?_, ?_⟩
  · exact DenMods.arrs (some 3) [some 2] _ [] _ (by simp) (.nil _)
  · intro h
    have := C32_denotes_unique _ _ _ h
      (DenMods.arrs (some 3) [some 2] (.base c%"int") [] _ (by simp) (.nil _))
    simp [arrsOf] at this

/-- C32 fails for a calling convention directly in front of a parenthesis, `int __stdcall (x)`:
`TypeError`. -/
theorem C32_counterexample_conv :
    procType exEv [] c%"int" (.mk [] (some c%"__stdcall") [] false (.center (dName c%"x")) false .nil []) =
      .error .typeError := by rfl

/-- C32 fails for a reference to an array (C++), `int &x[2]` in the grammar, an array of references in C
terms: the recorded type denotes a reference to an array. -/
theorem C32_counterexample_ref :
    ∃ d : Decl, d.ConvOk ∧ d.cty (fun x => (exEv x).dim) (.base c%"int") = .arr (some 2) (.ref (.base c%"int")) ∧
    ∃ t, procType exEv [] c%"int" d = .ok (some c%"x", t) ∧ Denotes t (.ref (.arr (some 2) (.base c%"int"))) :=
  ⟨.mk [] none [] true (.name c%"x") false .nil [c%"2"], by simp [Decl.ConvOk, Core.ConvOk], by rfl,
    ⟨c%"int", [.arr [some 2], .sym c%"&"], [some [], some [], some []]⟩, by rfl,
    DenMods.arrs (some 2) [] _ _ _ (by simp) (.ref _ _ _ (.nil _))⟩

/-! ### C34 -/

theorem anonLoop_spec (pre : Str) (used : Str → Bool) (fuel n : Nat) :
    (∃ k, n ≤ k ∧ k < n + fuel ∧ used (pre ++ natDigits k) = false ∧ (∀ j, n ≤ j → j < k → used (pre ++ natDigits j) = true) ∧
      anonLoop pre used fuel n = pre ++ natDigits k) ∨
    ((∀ j, n ≤ j → j < n + fuel → used (pre ++ natDigits j) = true) ∧ anonLoop pre used fuel n = pre ++ natDigits (n + fuel)) := by
  induction fuel generalizing n with
  | zero => right; exact ⟨fun j h1 h2 => by omega, rfl⟩
  | succ f ih =>
    rw [anonLoop]
    by_cases h : used (pre ++ natDigits n) = true
    · rw [if_pos h]
      rcases ih (n + 1) with ⟨k, h1, h2, h3, h4, h5⟩ | ⟨h1, h2⟩
      · left
        refine ⟨k, by omega, by omega, h3, ?_, h5⟩
        intro j hj1 hj2
        by_cases hj : j = n
        · rw [hj]; exact h
        · exact h4 j (by omega) hj2
      · right
        refine ⟨?_, ?_⟩
        · intro j hj1 hj2
          by_cases hj : j = n
          · rw [hj]; exact h
          · exact h1 j (by omega) (by omega)
        · rw [h2]; congr 2; omega
    · rw [if_neg h]
      left
      exact ⟨n, by omega, by omega, by simpa using h, fun j h1 h2 => by omega, rfl⟩

theorem natDigits_inj {a b : Nat} (h : natDigits a = natDigits b) : a = b := by
  rw [← digitsVal_natDigits a, ← digitsVal_natDigits b, h]

/-- C34: for every table, the generated name is the first unused one in the sequence `pre0`, `pre1`, ...;
the search ends after at most as many rounds as there are definitions. -/
theorem C34_fresh (pre : Str) (d : Dict Str DefVal) :
    dhas d (anonName pre d) = false ∧
    ∃ k, k ≤ d.length ∧ anonName pre d = pre ++ natDigits k ∧ ∀ j, j < k → dhas d (pre ++ natDigits j) = true := by
  rcases anonLoop_spec pre (dhas d) d.length 0 with ⟨k, h1, h2, h3, h4, h5⟩ | ⟨h1, h2⟩
  · refine ⟨by unfold anonName; rw [h5]; exact h3, k, by omega, h5, fun j hj => h4 j (by omega) hj⟩
  · rw [Nat.zero_add] at h2
    have hall : ∀ j, j < d.length → dhas d (pre ++ natDigits j) = true := fun j hj => h1 j (by omega) (by omega)
    refine ⟨?_, d.length, by omega, h2, hall⟩
    unfold anonName
    rw [h2]
    cases hq : dhas d (pre ++ natDigits d.length) with
    | false => rfl
    | true =>
      exfalso
      -- d.length + 1 distinct names among d.length keys
      have hsub : ((List.range (d.length + 1)).map fun j => pre ++ natDigits j) ⊆ dkeys d := by
        intro x hx
        simp only [List.mem_map, List.mem_range] at hx
        obtain ⟨j, hj, rfl⟩ := hx
        rw [← dget_isSome_iff]
        by_cases hjd : j = d.length
        · rw [hjd]; exact hq
        · exact hall j (by omega)
      have hnd : ((List.range (d.length + 1)).map fun j => pre ++ natDigits j).Nodup := by
        rw [List.nodup_iff_pairwise_ne, List.pairwise_map]
        refine List.Pairwise.imp ?_ (List.nodup_iff_pairwise_ne.1 List.nodup_range)
        intro a b hab h
        exact hab (natDigits_inj (List.append_cancel_left h))
      have hlen := (hnd.subperm hsub).length_le
      simp [dkeys] at hlen
      omega

/-- C34: an anonymous enum never replaces a recorded enum. -/
theorem C34_enum (ev : EvalExpr) (s : Store DefVal) (ms : List (Str × Option Str)) (n : Str) (v : DefVal)
    (h : dget (s.defs .enums) n = some v) : dget ((procEnum ev s none ms).1.defs .enums) n = some v := by
  have hf := (C34_fresh c%"anon_enum" (s.defs .enums)).1
  have hne : anonName c%"anon_enum" (s.defs .enums) ≠ n := by
    intro he; rw [he] at hf; simp [dhas, h] at hf
  have hloop : ∀ (ms : List (Str × Option Str)) (s : Store DefVal) (i : PVal) (e : Dict Str PVal),
      (enumLoop ev s i e ms).1.defs .enums = s.defs .enums := by
    intro ms
    induction ms with
    | nil => intro s i e; rfl
    | cons m ms ih =>
      intro s i e
      obtain ⟨x, ex⟩ := m
      rw [enumLoop.eq_def]
      simp only
      split
      · rw [ih]; simp [addDef, kset]
      · rw [ih]; simp [addDef, kset]
      · simp [addDef, kset]
  unfold procEnum
  simp only [Option.getD_none, hf, Bool.false_eq_true, if_false]
  cases hl : enumLoop ev s (.int 0) [] ms with
  | mk s' r =>
    have := hloop ms s (.int 0) []
    rw [hl] at this
    simp only at this
    cases r with
    | error e => simp only; rw [this]; exact h
    | ok e =>
      simp only
      rw [defs_addDef, defs_addDef]
      simp [hne, this, h]

/-- C34: an anonymous struct or union never replaces a recorded one. -/
theorem C34_struct (ev : EvalExpr) (s : Store DefVal) (union : Bool) (ms : List MemberDecl) (pack : Option Nat)
    (n : Str) (v : DefVal) (h : dget (s.defs (compKind union)) n = some v) :
    dget ((procStruct ev s union none ms pack).1.defs (compKind union)) n = some v := by
  have hf := (C34_fresh (c%"anon_" ++ compWord union) (s.defs (compKind union))).1
  have hne : anonName (c%"anon_" ++ compWord union) (s.defs (compKind union)) ≠ n := by
    intro he; rw [he] at hf; simp [dhas, h] at hf
  unfold procStruct
  simp only [Option.getD_none, hf, or_true, if_true]
  split
  · exact h
  · simp only
    rw [defs_addDef, defs_addDef]
    cases union <;> simp [compKind] at h hne ⊢ <;> simp [hne, h]

/-- With `anon_enum0` and `anon_enum1` taken, the next name is `anon_enum2`. -/
example : anonName c%"anon_enum" [(c%"anon_enum1", .enum []), (c%"E", .enum []), (c%"anon_enum0", .enum [])] =
    c%"anon_enum2" := by rfl

/-! ### C33 -/

/-- The table of an enum after recording the given values. -/
def recVals (e : Dict Str PVal) : List (Str × Int) → Dict Str PVal
  | [] => e
  | (n, v) :: r => recVals (dset e n (.int v)) r

theorem enumLoop_ok (ev : EvalExpr) (ms : List (Str × Option Str)) (vs : List (Str × Option Int)) :
    ∀ (s : Store DefVal) (prev : Int) (e : Dict Str PVal), EvalsTo ev (s.defs .values) prev ms vs →
    ∃ s', enumLoop ev s (.int (prev + 1)) e ms = (s', .ok (recVals e (enumVals prev vs))) ∧
      (∀ k n, k ≠ .values → dget (s'.defs k) n = dget (s.defs k) n) ∧
      ∀ n, (∃ v, dget (s'.defs .values) n = some (.value (.int v)) ∧ dget (recVals e (enumVals prev vs)) n = some (.int v)) ∨
        (dget (s'.defs .values) n = dget (s.defs .values) n ∧ dget (recVals e (enumVals prev vs)) n = dget e n ∧
          n ∉ ms.map (·.1)) := by
  induction ms generalizing vs with
  | nil =>
    intro s prev e h
    cases vs with
    | nil => exact ⟨s, rfl, fun _ _ _ => rfl, fun n => .inr ⟨rfl, rfl, by simp⟩⟩
    | cons => exact h.elim
  | cons m ms ih =>
    intro s prev e h
    cases vs with
    | nil => exact h.elim
    | cons v vs =>
      obtain ⟨n, ex⟩ := m
      obtain ⟨n', v⟩ := v
      obtain ⟨rfl, h1, h2⟩ := h
      have hi : (match ex with | some e => evIn ev s e | none => PVal.int (prev + 1)) = .int (v.getD (prev + 1)) := by
        cases ex with
        | none => cases v with
          | none => rfl
          | some v => exact h1.elim
        | some ex => cases v with
          | none => exact h1.elim
          | some v => exact h1
      have hstep : enumLoop ev s (.int (prev + 1)) e ((n, ex) :: ms) =
          enumLoop ev (addDef s .values n (.value (.int (v.getD (prev + 1))))) (.int (v.getD (prev + 1) + 1))
            (dset e n (.int (v.getD (prev + 1)))) ms := by
        cases ex with
        | none => cases v with
          | none => rfl
          | some v => exact h1.elim
        | some ex => cases v with
          | none => exact h1.elim
          | some v => rw [enumLoop.eq_def]; simp only [hi]
      rw [hstep]
      have hd : ∀ k, (addDef s .values n (.value (.int (v.getD (prev + 1))))).defs k =
          if k = .values then dset (s.defs k) n (.value (.int (v.getD (prev + 1)))) else s.defs k := by
        intro k
        by_cases hk : k = .values
        · subst hk; simp [addDef, kset]
        · simp [addDef, kset, hk]
      obtain ⟨s', e1, e2, e3⟩ := ih vs (addDef s .values n (.value (.int (v.getD (prev + 1))))) (v.getD (prev + 1))
        (dset e n (.int (v.getD (prev + 1)))) (by rw [hd]; exact h2)
      refine ⟨s', e1, ?_, ?_⟩
      · intro k x hk
        rw [e2 k x hk, hd, if_neg hk]
      · intro x
        rcases e3 x with h3 | ⟨h3, h4, h5⟩
        · exact .inl h3
        · by_cases hx : n = x
          · subst hx
            left
            refine ⟨v.getD (prev + 1), ?_, ?_⟩
            · rw [h3, hd]; simp
            · show dget (recVals (dset e n _) _) n = _
              rw [h4]; simp
          · right
            refine ⟨?_, ?_, ?_⟩
            · rw [h3, hd]; simp [dget_dset, hx]
            · show dget (recVals (dset e n _) _) x = _
              rw [h4]; simp [dget_dset, hx]
            · simp [Ne.symm hx]; simpa using h5

theorem recVals_append (e : Dict Str PVal) (vs : List (Str × Int)) (hn : (vs.map (·.1)).Nodup)
    (hd : ∀ p ∈ vs, dget e p.1 = none) : recVals e vs = e ++ vs.map fun p => (p.1, PVal.int p.2) := by
  have dset_new : ∀ (e : Dict Str PVal) (n : Str) (v : PVal), dget e n = none → dset e n v = e ++ [(n, v)] := by
    intro e n v h
    induction e with
    | nil => rfl
    | cons p e ih =>
      rw [dget_cons] at h
      by_cases hp : p.1 = n
      · simp [hp] at h
      · rw [if_neg hp] at h
        simp [dset, hp, ih h]
  induction vs generalizing e with
  | nil => simp [recVals]
  | cons p vs ih =>
    obtain ⟨n, v⟩ := p
    simp only [recVals]
    simp only [List.map_cons, List.nodup_cons] at hn
    have h0 := hd (n, v) (by simp)
    rw [dset_new e n _ h0, ih _ hn.2]
    · simp
    · intro q hq
      have hne : n ≠ q.1 := fun h => hn.1 (by rw [h]; exact List.mem_map_of_mem hq)
      have := hd q (List.mem_cons_of_mem _ hq)
      have h2 : dget (dset e n (.int v)) q.1 = none := by rw [dget_dset_ne _ _ hne]; exact this
      rwa [dset_new e n _ h0] at h2

theorem enumVals_names (prev : Int) (vs : List (Str × Option Int)) : (enumVals prev vs).map (·.1) = vs.map (·.1) := by
  induction vs generalizing prev with
  | nil => rfl
  | cons p vs ih => obtain ⟨n, v⟩ := p; simp [enumVals, ih]

theorem evalsTo_names (ev : EvalExpr) (ms : List (Str × Option Str)) (vs : List (Str × Option Int)) :
    ∀ tbl prev, EvalsTo ev tbl prev ms vs → ms.map (·.1) = vs.map (·.1) := by
  induction ms generalizing vs with
  | nil => intro tbl prev h; cases vs with
    | nil => rfl
    | cons => exact h.elim
  | cons m ms ih => intro tbl prev h; cases vs with
    | nil => exact h.elim
    | cons v vs =>
      obtain ⟨n, e⟩ := m; obtain ⟨n', v⟩ := v
      obtain ⟨rfl, _, h⟩ := h
      simp [ih vs _ _ h]

/-- C33: a new enum (named or not) whose explicit expressions are integers and whose enumerators are
distinct is recorded with exactly C's values, in order; every enumerator has the same value in
`defs["values"]`; no other value changes. -/
theorem C33_values (ev : EvalExpr) (s : Store DefVal) (name : Option Str) (ms : List (Str × Option Str))
    (vs : List (Str × Option Int)) (hev : EvalsTo ev (s.defs .values) (-1) ms vs)
    (hn : (ms.map (·.1)).Nodup) (hnew : ∀ n, name = some n → dhas (s.defs .enums) n = false) :
    let n := name.getD (anonName c%"anon_enum" (s.defs .enums))
    ∃ s', procEnum ev s name ms = (s', some (c%"enum " ++ n)) ∧
      dget (s'.defs .enums) n = some (.enum ((enumVals (-1) vs).map fun p => (p.1, .int p.2))) ∧
      (∀ p ∈ enumVals (-1) vs, dget (s'.defs .values) p.1 = some (.value (.int p.2))) ∧
      ∀ x, x ∉ ms.map (·.1) → dget (s'.defs .values) x = dget (s.defs .values) x := by
  intro n
  have hfree : dhas (s.defs .enums) n = false := by
    cases name with
    | none => exact (C34_fresh _ _).1
    | some m => exact hnew m rfl
  obtain ⟨s', e1, e2, e3⟩ := enumLoop_ok ev ms vs s (-1) [] hev
  have e1 : enumLoop ev s (.int 0) [] ms = (s', .ok (recVals [] (enumVals (-1) vs))) := e1
  have hrec : recVals [] (enumVals (-1) vs) = (enumVals (-1) vs).map fun p => (p.1, PVal.int p.2) := by
    have := recVals_append [] (enumVals (-1) vs)
      (by rw [enumVals_names, ← evalsTo_names ev ms vs _ _ hev]; exact hn) (by simp)
    simpa using this
  have hp : procEnum ev s name ms =
      (addDef (addDef s' .enums n (.enum (recVals [] (enumVals (-1) vs)))) .types (c%"enum " ++ n)
        (.type ⟨c%"enum", [.sym n], [some [], some []]⟩), some (c%"enum " ++ n)) := by
    unfold procEnum
    simp only
    rw [if_neg (by show ¬ dhas (s.defs .enums) n = true; rw [hfree]; simp), e1]
  have hnd : DNodup ((enumVals (-1) vs).map fun p => (p.1, PVal.int p.2)) := by
    unfold DNodup dkeys
    rw [List.map_map]
    have : ((fun x => x.1) ∘ fun (p : Str × Int) => (p.1, PVal.int p.2)) = fun p => p.1 := rfl
    rw [this, enumVals_names, ← evalsTo_names ev ms vs _ _ hev]; exact hn
  refine ⟨_, hp, ?_, ?_, ?_⟩
  · rw [defs_addDef, defs_addDef, hrec]; simp
  · intro p hpm
    rw [defs_addDef, defs_addDef]
    simp only [reduceCtorEq, false_and, if_false]
    rcases e3 p.1 with ⟨v, h1, h2⟩ | ⟨_, _, h3⟩
    · rw [h1]
      rw [hrec] at h2
      have := dget_of_mem hnd (k := p.1) (v := .int p.2) (List.mem_map_of_mem (f := fun p => (p.1, PVal.int p.2)) hpm)
      rw [this] at h2
      simp at h2
      rw [h2]
    · exfalso
      apply h3
      rw [evalsTo_names ev ms vs _ _ hev, ← enumVals_names (-1)]
      exact List.mem_map_of_mem hpm
  · intro x hx
    rw [defs_addDef, defs_addDef]
    simp only [reduceCtorEq, false_and, if_false]
    rcases e3 x with ⟨v, h1, h2⟩ | ⟨h1, _, _⟩
    · exfalso
      rw [hrec] at h2
      have := dget_some_mem h2
      simp only [List.mem_map] at this
      obtain ⟨q, hq, he⟩ := this
      simp only [Prod.mk.injEq] at he
      apply hx
      rw [evalsTo_names ev ms vs _ _ hev, ← enumVals_names (-1), ← he.1]
      exact List.mem_map_of_mem hq
    · exact h1

/-- Evaluation for the examples: looks names up in the values, reads decimal numbers. -/
def exEvalExpr : EvalExpr := fun tbl e =>
  match dget tbl e with
  | some (.value v) => v
  | _ => exEv e

/-- `enum E { A, B = 5, C, D = A }` gives 0, 5, 6, 0. -/
example : EvalsTo exEvalExpr [] (-1) [(c%"A", none), (c%"B", some c%"5"), (c%"C", none), (c%"D", some c%"A")]
      [(c%"A", none), (c%"B", some 5), (c%"C", none), (c%"D", some 0)] ∧
    enumVals (-1) [(c%"A", none), (c%"B", some 5), (c%"C", none), (c%"D", some 0)] =
      [(c%"A", 0), (c%"B", 5), (c%"C", 6), (c%"D", 0)] := by
  refine ⟨⟨rfl, trivial, rfl, rfl, rfl, trivial, rfl, rfl, trivial⟩, by rfl⟩

/-- C33, when an expression cannot be evaluated (`enum E { A, B = sizeof(int), C }`): the enum is not
recorded, but `A` and `B` are, `B` as `None`. -/
theorem C33_counterexample_failure :
    let r := procEnum exEvalExpr Store.empty (some c%"E") [(c%"A", none), (c%"B", some c%"sizeof(int)"), (c%"C", none)]
    r.2 = none ∧ r.1.defs .enums = [] ∧ r.1.defs .values = [(c%"A", .value (.int 0)), (c%"B", .value .none)] := by
  refine ⟨by rfl, by rfl, by rfl⟩

/-- A name that is already recorded is left alone, with its values. -/
theorem C33_existing (ev : EvalExpr) (s : Store DefVal) (n : Str) (ms : List (Str × Option Str))
    (h : dhas (s.defs .enums) n = true) : procEnum ev s (some n) ms = (s, some (c%"enum " ++ n)) := by
  simp [procEnum, h]

/-! ### C35 -/

/-- C35: mentioning a recorded struct or union without a body changes nothing. -/
theorem C35_mention (ev : EvalExpr) (s : Store DefVal) (union : Bool) (n : Str) (pack : Option Nat)
    (h : dhas (s.defs (compKind union)) n = true) :
    procStruct ev s union (some n) [] pack = (s, some (compWord union ++ ' ' :: n)) := by
  simp [procStruct, h]

theorem pyInt_natDigits (k : Nat) : pyInt (natDigits k) = .ok (k : Int) := by
  have hd := isDigits_natDigits k
  have hv := digitsVal_natDigits k
  unfold pyInt
  split
  · rename_i s h; rw [h] at hd; simp [isDigits] at hd
  · rename_i s h; rw [h] at hd; simp [isDigits] at hd
  · rw [if_pos hd, hv]

/-- Bit widths as Python reads them: decimal digits, with a sign or without; everything else (hexadecimal numbers,
suffixes, a blank after the sign) raises `ValueError`, and the struct gets no definition. -/
theorem C35_bit_width (k : Nat) : pyInt (natDigits k) = .ok (k : Int) ∧ pyInt ('+' :: natDigits k) = .ok (k : Int) ∧
    pyInt ('-' :: natDigits k) = .ok (-(k : Int)) ∧
    ∀ b i, pyInt b = .ok i → ∃ ds, isDigits ds = true ∧ (b = ds ∨ b = '+' :: ds ∨ b = '-' :: ds) := by
  refine ⟨pyInt_natDigits k, ?_, ?_, ?_⟩
  · simp only [pyInt, isDigits_natDigits, digitsVal_natDigits, if_true]
  · simp only [pyInt, isDigits_natDigits, digitsVal_natDigits, if_true]
  · intro b i h
    unfold pyInt at h
    split at h
    · rename_i ds
      split at h
      · rename_i hd; exact ⟨ds, hd, by simp⟩
      · cases h
    · rename_i ds
      split at h
      · rename_i hd; exact ⟨ds, hd, by simp⟩
      · cases h
    · split at h
      · rename_i hd; exact ⟨_, hd, .inl rfl⟩
      · cases h

theorem bitOf_spec {b : Option Str} {r : Option Int} (h : bitOf b = .ok r) :
    (r = none ↔ b = none) ∧ ∀ k : Nat, b = some (natDigits k) → r = some (k : Int) := by
  cases b with
  | none => simp [bitOf] at h; subst h; simp
  | some b =>
    simp only [bitOf] at h
    cases hb : pyInt b with
    | error e => rw [hb] at h; simp at h
    | ok i =>
      rw [hb] at h
      simp only [Except.ok.injEq] at h
      subst h
      refine ⟨by simp, ?_⟩
      intro k hk
      simp only [Option.some.injEq] at hk
      subst hk
      rw [pyInt_natDigits] at hb
      simp at hb
      rw [hb]

theorem memberDecls_spec (ev : Str → PVal) (tq : List Str) (tn : Str) (val : PVal) (bit : Option Str)
    (ds : List Decl) (hok : ∀ d ∈ ds, d.ConvOk ∧ d.ArrOk) (out : List Member)
    (h : memberDecls ev tq tn val bit ds = .ok out) :
    All2 (MemberIs fun x => (ev x).dim) (ds.map fun d => ⟨tn, some d, bit⟩) out := by
  induction ds generalizing out with
  | nil => simp [memberDecls] at h; subst h; exact .nil
  | cons d ds ih =>
    obtain ⟨t, ht, _, hden⟩ := C32_declarator_partial ev tq tn d (hok d (by simp)).1 (hok d (by simp)).2
    simp only [memberDecls, ht] at h
    cases hb : bitOf bit with
    | error e => rw [hb] at h; simp at h
    | ok b =>
      rw [hb] at h
      cases hr : memberDecls ev tq tn val bit ds with
      | error e => rw [hr] at h; simp at h
      | ok r =>
        rw [hr] at h
        simp only [Except.ok.injEq] at h
        subst h
        refine .cons _ _ _ _ ⟨(bitOf_spec hb).1, (bitOf_spec hb).2, rfl, hden⟩ (ih (fun d hd => hok d (by simp [hd])) r hr)

theorem all2_append {α β : Type} {R : α → β → Prop} {a c : List α} {b d : List β} (h : All2 R a b)
    (h' : All2 R c d) : All2 R (a ++ c) (b ++ d) := by
  induction h with
  | nil => exact h'
  | cons x y xs ys hxy _ ih => exact .cons _ _ _ _ hxy ih

/-- C35: the members of a body are recorded in order, one per declarator, with name, type and bit
width. -/
theorem C35_members (ev : Str → PVal) (ms : List MemberDecl) (hok : BodyOk ms) (out : List Member)
    (h : membersOf ev ms = .ok out) : All2 (MemberIs fun x => (ev x).dim) (cmembers ms) out := by
  induction ms generalizing out with
  | nil => simp [membersOf] at h; subst h; exact .nil
  | cons m ms ih =>
    simp only [membersOf] at h
    cases hm : memberOf ev m with
    | error e => rw [hm] at h; simp at h
    | ok a =>
      rw [hm] at h
      cases hr : membersOf ev ms with
      | error e => rw [hr] at h; simp at h
      | ok b =>
        rw [hr] at h
        simp only [Except.ok.injEq] at h
        subst h
        have h1 : All2 (MemberIs fun x => (ev x).dim) (match m.decls with
            | [] => [⟨m.tn, none, m.bit⟩]
            | ds => ds.map fun d => ⟨m.tn, some d, m.bit⟩) a := by
          unfold memberOf at hm
          cases hd : m.decls with
          | nil =>
            simp only [hd] at hm ⊢
            cases hb : bitOf m.bit with
            | error e => rw [hb] at hm; simp at hm
            | ok b =>
              rw [hb] at hm
              simp only [Except.ok.injEq] at hm
              subst hm
              exact .cons _ _ _ _ ⟨(bitOf_spec hb).1, (bitOf_spec hb).2, rfl⟩ .nil
          | cons d ds =>
            simp only [hd] at hm ⊢
            exact memberDecls_spec ev _ _ _ _ _ (fun d' hd' => hok m (by simp) d' (by rw [hd]; exact hd')) _ hm
        have h2 := ih (fun m' hm' => hok m' (by simp [hm'])) b hr
        exact all2_append h1 h2

/-- C35: a body with decimal bit widths never fails, so the definition replaces whatever was recorded,
in particular a forward declaration. -/
theorem C35_body (ev : EvalExpr) (s : Store DefVal) (union : Bool) (n : Str) (ms : List MemberDecl)
    (pack : Option Nat) (hne : ms ≠ []) (hok : BodyOk ms)
    (hbit : ∀ m ∈ ms, ∀ b, m.bit = some b → ∃ k : Nat, b = natDigits k) :
    ∃ out s', procStruct ev s union (some n) ms pack = (s', some (compWord union ++ ' ' :: n)) ∧
      dget (s'.defs (compKind union)) n = some (.compound out pack) ∧
      All2 (MemberIs fun x => (evIn ev s x).dim) (cmembers ms) out ∧
      ∀ x, x ≠ n → dget (s'.defs (compKind union)) x = dget (s.defs (compKind union)) x := by
  have hb : ∀ m ∈ ms, IsOk (bitOf m.bit) := by
    intro m hm
    cases hm' : m.bit with
    | none => exact ⟨none, rfl⟩
    | some b =>
      obtain ⟨k, rfl⟩ := hbit m hm b hm'
      exact ⟨some (k : Int), by simp [bitOf, pyInt_natDigits]⟩
  have hds : ∀ (ev : Str → PVal) tq tn val bit (ds : List Decl), IsOk (bitOf bit) →
      (∀ d ∈ ds, d.ConvOk ∧ d.ArrOk) → IsOk (memberDecls ev tq tn val bit ds) := by
    intro ev tq tn val bit ds ⟨b, hb⟩ hok
    induction ds with
    | nil => exact ⟨_, rfl⟩
    | cons d ds ih =>
      obtain ⟨t, ht, _, _⟩ := C32_declarator_partial ev tq tn d (hok d (by simp)).1 (hok d (by simp)).2
      obtain ⟨r, hr⟩ := ih (fun d hd => hok d (by simp [hd]))
      simp only [memberDecls, ht, hb, hr]
      exact ⟨_, rfl⟩
  have hms : ∀ (ev : Str → PVal) (ms : List MemberDecl), BodyOk ms → (∀ m ∈ ms, IsOk (bitOf m.bit)) →
      IsOk (membersOf ev ms) := by
    intro ev ms hok hb
    induction ms with
    | nil => exact ⟨_, rfl⟩
    | cons m ms ih =>
      obtain ⟨r, hr⟩ := ih (fun m hm => hok m (by simp [hm])) (fun m hm => hb m (by simp [hm]))
      have : IsOk (memberOf ev m) := by
        unfold memberOf
        cases hd : m.decls with
        | nil => obtain ⟨b, hb'⟩ := hb m (by simp); simp only [hb']; exact ⟨_, rfl⟩
        | cons d ds =>
          simp only
          exact hds _ _ _ _ _ _ (hb m (by simp)) (by rw [← hd]; exact hok m (by simp))
      obtain ⟨a, ha⟩ := this
      simp only [membersOf, ha, hr]
      exact ⟨_, rfl⟩
  obtain ⟨out, hout⟩ := hms (evIn ev s) ms hok hb
  refine ⟨out, addDef (addDef s (compKind union) n (.compound out pack)) .types (compWord union ++ ' ' :: n)
    (.type ⟨compWord union, [.sym n], [some [], some []]⟩), ?_, ?_, C35_members _ _ hok _ hout, ?_⟩
  · unfold procStruct
    simp only [Option.getD_some]
    rw [if_pos (Or.inl hne), hout]
  · rw [defs_addDef, defs_addDef]
    cases union <;> simp [compKind]
  · intro x hx
    rw [defs_addDef, defs_addDef]
    cases union <;> simp [compKind, Ne.symm hx]

/-- One struct or union in a header: its name if it has one, its members (none: only mentioned), the
packing. -/
structure StructOp where
  union : Bool
  name : Option Str
  members : List MemberDecl
  pack : Option Nat

/-- Processing one after the other. -/
def runStructs (ev : EvalExpr) (s : Store DefVal) : List StructOp → Store DefVal
  | [] => s
  | o :: os => runStructs ev (procStruct ev s o.union o.name o.members o.pack).1 os

theorem procStruct_other (ev : EvalExpr) (s : Store DefVal) (o : StructOp) (union : Bool) (n : Str)
    (v : DefVal) (hv : dget (s.defs (compKind union)) n = some v)
    (h : o.union ≠ union ∨ o.name ≠ some n ∨ o.members = []) :
    dget ((procStruct ev s o.union o.name o.members o.pack).1.defs (compKind union)) n = some v := by
  by_cases hu : o.union = union
  · subst hu
    cases hn : o.name with
    | none => exact C34_struct ev s o.union o.members o.pack n v hv
    | some m =>
      by_cases hm : m = n
      · subst hm
        rcases h with h | h | h
        · exact (h rfl).elim
        · exact (h hn).elim
        · rw [h, C35_mention ev s o.union m o.pack (by simp [dhas, hv])]
          exact hv
      · unfold procStruct
        simp only [Option.getD_some]
        split
        · split
          · exact hv
          · simp only
            rw [defs_addDef, defs_addDef]
            cases ho : o.union <;> simp [compKind, ho] at hv ⊢ <;> simp [hm, hv]
        · exact hv
  · have hk : compKind o.union ≠ compKind union := by
      cases h1 : o.union <;> cases h2 : union <;> simp_all [compKind]
    have hk2 : compKind union ≠ .types := by cases union <;> simp [compKind]
    unfold procStruct
    simp only
    split
    · split
      · exact hv
      · simp only
        rw [defs_addDef, defs_addDef]
        simp [Ne.symm hk2, hk, hv, hk2]
    · exact hv

/-- C35 (histories): whatever structs and unions follow, named or anonymous, a recorded definition stays
as long as no later body has its name. -/
theorem C35_history (ev : EvalExpr) (s : Store DefVal) (os : List StructOp) (union : Bool) (n : Str)
    (v : DefVal) (hv : dget (s.defs (compKind union)) n = some v)
    (h : ∀ o ∈ os, o.union ≠ union ∨ o.name ≠ some n ∨ o.members = []) :
    dget ((runStructs ev s os).defs (compKind union)) n = some v := by
  induction os generalizing s with
  | nil => exact hv
  | cons o os ih =>
    exact ih _ (procStruct_other ev s o union n v hv (h o (by simp))) (fun o' ho' => h o' (by simp [ho']))

/-- `struct P; struct P { int x, *y; unsigned b : 3; }; struct P;` -/
example :
    let body : List MemberDecl := [⟨[], c%"int", [dName c%"x", .mk [] none [[]] false (.name c%"y") false .nil []], none, none⟩,
      ⟨[], c%"unsigned", [dName c%"b"], none, some c%"3"⟩]
    BodyOk body ∧
    dget ((runStructs exEvalExpr Store.empty [⟨false, some c%"P", [], none⟩, ⟨false, some c%"P", body, some 4⟩,
      ⟨false, some c%"P", [], none⟩]).defs .structs) c%"P" =
      some (.compound [⟨some c%"x", ⟨c%"int", [], [some []]⟩, .none, none⟩,
        ⟨some c%"y", ⟨c%"int", [.sym c%"*"], [some [], some []]⟩, .none, none⟩,
        ⟨some c%"b", ⟨c%"unsigned", [], [some []]⟩, .none, some 3⟩] (some 4)) := by
  refine ⟨?_, by rfl⟩
  intro m hm d hd
  simp at hm
  rcases hm with rfl | rfl <;> simp at hd
  · rcases hd with rfl | rfl <;>
      simp [dName, Decl.ConvOk, Core.ConvOk, Decl.ArrOk, Core.ArrOk]
  · subst hd
    simp [dName, Decl.ConvOk, Core.ConvOk, Decl.ArrOk, Core.ArrOk]

/-- C35: a bit width that is not a decimal number (`unsigned b : 0x3;`) makes the whole struct
disappear. -/
theorem C35_counterexample_hex :
    procStruct exEvalExpr Store.empty false (some c%"P") [⟨[], c%"unsigned", [dName c%"b"], none, some c%"0x3"⟩] none =
      (Store.empty, none) := by rfl

/-- C35: the type of an unnamed qualified member, `const struct Q;` inside a struct, is recorded as
`const`. -/
theorem C35_counterexample_anonymous :
    membersOf exEv [⟨[c%"const"], c%"struct anon_struct0", [], none, none⟩] =
      .ok [⟨none, ⟨c%"const", [], [some []]⟩, .none, none⟩] := by rfl

/-! ### C36 -/

/-- Not a calling convention. -/
def CMod.NotConv : CMod → Prop
  | .sym c => c = c%"*" ∨ c = c%"&"
  | _ => True

theorem isFn_step {m : CMod} {ms : List CMod} {t' u : CTy}
    (ih : (∀ m, ms.getLast? = some m → m.NotConv) →
      (u.isFn = true ↔ (ms = [] ∧ t'.isFn = true) ∨ ∃ ps, ms.getLast? = some (.fn ps)))
    (ht' : t'.isFn = true ↔ ∃ ps, m = .fn ps)
    (hl : ∀ x, (m :: ms).getLast? = some x → x.NotConv) :
    u.isFn = true ↔ ∃ ps, (m :: ms).getLast? = some (.fn ps) := by
  cases ms with
  | nil =>
    rw [ih (by simp)]
    simp [ht']
  | cons y ys =>
    have e : (m :: y :: ys).getLast? = (y :: ys).getLast? := by simp [List.getLast?_cons]
    rw [e] at hl ⊢
    rw [ih hl]
    simp

theorem denMods_isFn {t : CTy} {ms : List CMod} {u : CTy} (h : DenMods t ms u) :
    (∀ m, ms.getLast? = some m → m.NotConv) →
    (u.isFn = true ↔ (ms = [] ∧ t.isFn = true) ∨ ∃ ps, ms.getLast? = some (.fn ps)) := by
  refine DenMods.rec (motive_1 := fun t ms u _ => (∀ m, ms.getLast? = some m → m.NotConv) →
    (u.isFn = true ↔ (ms = [] ∧ t.isFn = true) ∨ ∃ ps, ms.getLast? = some (.fn ps)))
    (motive_2 := fun _ _ _ => True) ?_ ?_ ?_ ?_ ?_ ?_ ?_ ?_ h
  · intro t _; simp
  · intro t ms u h ih hl
    rw [isFn_step ih (by simp [CTy.isFn]) hl]; simp
  · intro t ms u h ih hl
    rw [isFn_step ih (by simp [CTy.isFn]) hl]; simp
  · intro c t ms u hc h ih hl
    cases ms with
    | nil =>
      have := hl (.sym c) (by simp)
      rcases this with h | h
      · exact (hc.1 h).elim
      · exact (hc.2 h).elim
    | cons y ys =>
      have e : (CMod.sym c :: y :: ys).getLast? = (y :: ys).getLast? := by simp [List.getLast?_cons]
      rw [e] at hl ⊢
      rw [ih hl]
      simp
  · intro n ns t ms u hm h ih hl
    cases ms with
    | nil =>
      rw [ih (by simp)]
      have : ∃ x, (List.map (fun n => CMod.arr [n]) (n :: ns) ++ []).getLast? = some (.arr x) := by
        rw [List.append_nil, List.getLast?_map]
        cases hx : (n :: ns).getLast? with
        | none => simp at hx
        | some y => exact ⟨[y], rfl⟩
      obtain ⟨x, hx⟩ := this
      rw [hx]
      simp [arrsOf, CTy.isFn]
    | cons y ys =>
      have e : (List.map (fun n => CMod.arr [n]) (n :: ns) ++ y :: ys).getLast? = (y :: ys).getLast? := by
        rw [List.getLast?_append]; simp [List.getLast?_cons]
      rw [e] at hl ⊢
      rw [ih hl]
      simp
  · intro ps cs t ms u hp h _ ihm hl
    rw [isFn_step ihm (by simp [CTy.isFn]) hl]; simp
  · trivial
  · intros; trivial

/-- The last modifier, if any, is not a calling convention. -/
def LastOk (ms : List CMod) : Prop := ∀ m, ms.getLast? = some m → m.NotConv

theorem lastOk_append {a b : List CMod} (hb : LastOk b) (ha : b = [] → LastOk a) : LastOk (a ++ b) := by
  intro m hm
  cases hc : b.getLast? with
  | none =>
    rw [List.getLast?_eq_none_iff] at hc
    subst hc
    exact ha rfl m (by simpa using hm)
  | some x =>
    rw [List.getLast?_append, hc] at hm
    exact hb m (by simpa [hc] using hm)

theorem level_last (ev : Str → PVal) (conv : Option Str) (ptrs : List (List Str)) (arrays : List Str)
    (extra : List CMod) (hx : ∀ m ∈ extra, m.NotConv)
    (h : (conv.isSome && ptrs.isEmpty && arrays.isEmpty && extra.isEmpty) = false) :
    LastOk (levelToks ev conv ptrs arrays ++ extra) := by
  have he : levelToks ev conv ptrs arrays ++ extra = (match conv with | some c => [CMod.sym c] | none => []) ++
      (ptrs.map (fun _ => CMod.sym c%"*") ++ (arrays.map (fun x => CMod.arr [(ev x).dim]) ++ extra)) := by
    cases conv <;> simp [levelToks]
  rw [he]
  apply lastOk_append
  · intro m hm
    have := List.mem_of_getLast? hm
    simp only [List.mem_append, List.mem_map] at this
    rcases this with ⟨_, _, rfl⟩ | ⟨_, _, rfl⟩ | h
    · exact Or.inl rfl
    · trivial
    · exact hx m h
  · intro hnil
    simp at hnil
    obtain ⟨rfl, rfl, rfl⟩ := hnil
    simp at h
    subst h
    intro m hm
    simp at hm

mutual
theorem lastOk_decl (ev : Str → PVal) : (d : Decl) → d.ConvOk → d.endsConv = false → ∀ n toks quals,
    procDecl ev d = .ok (n, toks, quals) → LastOk toks
  | .mk first conv ptrs ref core hasArgs args arrays, hco, hend, n, toks, quals, h => by
    obtain ⟨_, c2, c3, _⟩ := hco
    have hc := lastOk_core ev ref core c3 _ hend
    have key : ∀ (extra : List CMod) (qx : List Qual) (n toks quals),
        procCore ev ref core (levelToks ev conv ptrs arrays ++ extra) qx = .ok (n, toks, quals) →
        (∀ m ∈ extra, m.NotConv) → (extra = [] → hasArgs = false) → LastOk toks := by
      intro extra qx n toks quals h h1 h2
      apply hc _ _ _ _ _ h
      intro hlev
      rw [List.append_assoc]
      apply level_last
      · intro m hm
        rw [List.mem_append] at hm
        rcases hm with hm | hm
        · exact h1 m hm
        · cases ref
          · simp at hm
          · simp at hm; subst hm; exact Or.inr rfl
      · by_cases hcen : core.isCenter = true
        · cases hx : extra with
          | cons e es => simp
          | nil =>
            have hf := h2 hx
            subst hf
            rw [hcen] at c2
            cases ref
            · rcases c2 with c | c | c | c | c | c
              · simp [c]
              · cases ptrs
                · simp at c
                · simp
              · cases arrays
                · simp at c
                · simp
              · simp at c
              · simp at c
              · simp at c
            · simp
        · have := hlev (by simpa using hcen)
          cases hx : extra with
          | cons e es => simp
          | nil =>
            have hf := h2 hx
            subst hf
            cases ref
            · simpa using this
            · simp
    simp only [procDecl] at h
    cases hp : procArgs ev args with
    | error e =>
      rw [hp] at h
      cases hasArgs with
      | true => simp at h
      | false =>
        simp only [Bool.false_eq_true, if_false] at h
        exact key [] _ n toks quals (by simpa using h) (by simp) (by simp)
    | ok ps =>
      rw [hp] at h
      cases hasArgs with
      | true => exact key [.fn ps] _ n toks quals h (by simp [CMod.NotConv]) (by simp)
      | false => exact key [] _ n toks quals h (by simp) (by simp)
theorem lastOk_core (ev : Str → PVal) (ref : Bool) : (c : Core) → c.ConvOk → ∀ b, c.endsConv b = false →
    ∀ toks quals n toks' quals', procCore ev ref c toks quals = .ok (n, toks', quals') →
    ((c.isCenter = false → b = false) → LastOk (toks ++ if ref then [CMod.sym c%"&"] else [])) → LastOk toks'
  | .name n, _, b, hb, toks, quals, _, _, _, h, hl => by
    simp only [procCore, Except.ok.injEq, Prod.mk.injEq] at h
    obtain ⟨_, rfl, _⟩ := h
    exact hl (fun _ => hb)
  | .abs, _, b, hb, toks, quals, _, _, _, h, hl => by
    simp only [procCore, Except.ok.injEq, Prod.mk.injEq] at h
    obtain ⟨_, rfl, _⟩ := h
    exact hl (fun _ => hb)
  | .center d, hco, b, hb, toks, quals, _, _, _, h, hl => by
    have hd := lastOk_decl ev d hco hb
    simp only [procCore] at h
    cases hp : procDecl ev d with
    | error e => rw [hp] at h; simp at h
    | ok x =>
      obtain ⟨n, t, q⟩ := x
      rw [hp] at h
      simp only at h
      split at h
      · cases h
      · simp only [Except.ok.injEq, Prod.mk.injEq] at h
        obtain ⟨_, rfl, _⟩ := h
        exact lastOk_append (hd _ _ _ hp) (fun _ => hl (by simp [Core.isCenter]))
end

/-- Declarators the parser reads correctly: see `C32_declarator_partial` and `C36_counterexample_conv`. -/
def Decl.Ok (d : Decl) : Prop := d.ConvOk ∧ d.ArrOk ∧ d.endsConv = false

/-- The declarator declares a function. -/
def declaresFn (tn : Str) (d : Decl) : Bool := (d.cty (fun _ => none) (.base tn)).isFn

mutual
theorem cty_isFn (e e' : Str → Option Int) : (d : Decl) → ∀ t t' : CTy, t.isFn = t'.isFn →
    (d.cty e t).isFn = (d.cty e' t').isFn
  | .mk _ _ ptrs ref core hasArgs args arrays, t, t', h => by
    simp only [Decl.cty]
    apply cty_isFn_core
    cases hasArgs with
    | true => rfl
    | false =>
      simp only [Bool.false_eq_true, if_false]
      cases arrays with
      | cons a as => rfl
      | nil =>
        simp only [List.map_nil, arrsOf]
        cases ref with
        | true => rfl
        | false =>
          simp only [Bool.false_eq_true, if_false]
          have : ∀ n (t t' : CTy), t.isFn = t'.isFn → (ptrsTo n t).isFn = (ptrsTo n t').isFn := by
            intro n
            induction n with
            | zero => intro t t' h; exact h
            | succ n ih => intro t t' h; exact ih _ _ rfl
          exact this _ _ _ h
theorem cty_isFn_core (e e' : Str → Option Int) : (c : Core) → ∀ t t' : CTy, t.isFn = t'.isFn →
    (c.cty e t).isFn = (c.cty e' t').isFn
  | .name _, t, t', h => h
  | .abs, t, t', h => h
  | .center d, t, t', h => cty_isFn e e' d t t' h
end

/-- C36 (classification): what the parser takes for a function is exactly what C says is one. -/
theorem C36_isFn (ev : Str → PVal) (tq : List Str) (tn : Str) (d : Decl) (hok : d.Ok) :
    ∃ t, procType ev tq tn d = .ok (d.name, t) ∧ Denotes t (d.cty (fun x => (ev x).dim) (.base tn)) ∧
      isFnType t = declaresFn tn d := by
  obtain ⟨t, ht, hs, hd⟩ := C32_declarator_partial ev tq tn d hok.1 hok.2.1
  refine ⟨t, ht, hd, ?_⟩
  have hl : LastOk t.mods := by
    simp only [procType] at ht
    cases hp : procDecl ev d with
    | error e => rw [hp] at ht; simp at ht
    | ok x =>
      obtain ⟨n, toks, quals⟩ := x
      obtain ⟨_, h2, ⟨q, r, rfl⟩, _⟩ := (procDecl_spec ev d).2 _ _ _ hp
      rw [hp] at ht
      simp only [typeOf_ok tq tn toks q r h2, Except.ok.injEq, Prod.mk.injEq] at ht
      obtain ⟨_, rfl⟩ := ht
      exact lastOk_decl ev d hok.1 hok.2.2 _ _ _ hp
  have h := denMods_isFn hd hl
  have h2 : (d.cty (fun x => (ev x).dim) (.base tn)).isFn = declaresFn tn d := cty_isFn _ _ d _ _ rfl
  rw [h2] at h
  have h3 : isFnType t = true ↔ ∃ ps, t.mods.getLast? = some (.fn ps) := by
    unfold isFnType
    split
    · rename_i ps hps; simp [hps]
    · rename_i hne; simp; exact fun x => hne x
  rw [Bool.eq_iff_iff, h3, h]
  simp [CTy.isFn]

theorem isFn_addHack (t : CType) (ht : QualsMatch t) : ∃ h, addHack t = .ok h := by
  obtain ⟨⟨h, h1, _⟩, _⟩ := C03_hack t ht
  exact ⟨h, h1⟩

/-- What one declarator records: a function under `functions`; anything else under `variables` and
`values`. -/
def Records (ev : EvalExpr) (tq : List Str) (tn : Str) (val : PVal) (s : Store DefVal) (d : Decl)
    (s' : Store DefVal) : Prop :=
  ∃ t, procType (evIn ev s) tq tn d = .ok (d.name, t) ∧
    Denotes t (d.cty (fun x => (evIn ev s x).dim) (.base tn)) ∧
    if declaresFn tn d then ∃ h, addHack t = .ok h ∧
      ∀ k n, dget (s'.defs k) n = if k = .functions ∧ n = nameOr d.name then some (.func h) else dget (s.defs k) n
    else ∀ k n, dget (s'.defs k) n =
      if k = .variables ∧ n = nameOr d.name then some (.var val t)
      else if k = .values ∧ n = nameOr d.name then some (.value val) else dget (s.defs k) n

/-- The declarators of a list record one entry each, one after the other. -/
def RecordsAll (ev : EvalExpr) (tq : List Str) (tn : Str) (val : PVal) : Store DefVal → List Decl → Store DefVal → Prop
  | s, [], s' => s' = s
  | s, d :: ds, s' => ∃ s1, Records ev tq tn val s d s1 ∧ RecordsAll ev tq tn val s1 ds s'

/-- C36 (partial: the declarators of `C32_declarator_partial`, and no calling convention alone in
parentheses): a declaration list records, for each declarator in turn, exactly one entry under
`functions` if C says the declared type is a function, and otherwise exactly one under `variables` and
the same value under `values`; nothing else changes. -/
theorem C36_variable_partial (ev : EvalExpr) (s : Store DefVal) (tq : List Str) (tn : Str) (ds : List Decl)
    (ini : Init) (hok : ∀ d ∈ ds, d.Ok) :
    RecordsAll ev tq tn (initVal (evIn ev s) ini) s ds (procVariable ev s tq tn ds ini) := by
  unfold procVariable
  generalize initVal (evIn ev s) ini = val
  induction ds generalizing s with
  | nil => rfl
  | cons d ds ih =>
    obtain ⟨t, ht, hden, hfn⟩ := C36_isFn (evIn ev s) tq tn d (hok d (by simp))
    have hq := ((C03_declarator (evIn ev s) tq tn d).2 _ _ ht).1
    obtain ⟨hh, hhe⟩ := isFn_addHack t hq
    simp only [varLoop, ht]
    cases hf : declaresFn tn d with
    | true =>
      rw [hf] at hfn
      rw [if_pos hfn, hhe]
      refine ⟨_, ⟨t, ht, hden, ?_⟩, ih _ (fun d hd => hok d (by simp [hd]))⟩
      rw [if_pos hf]
      refine ⟨hh, hhe, ?_⟩
      intro k n
      rw [defs_addDef]
      by_cases h : k = .functions ∧ n = nameOr d.name
      · obtain ⟨rfl, rfl⟩ := h; simp
      · rw [if_neg h, if_neg (by intro h'; exact h ⟨h'.1.symm, h'.2.symm⟩)]
    | false =>
      rw [hf] at hfn
      rw [if_neg (by rw [hfn]; simp)]
      refine ⟨_, ⟨t, ht, hden, ?_⟩, ih _ (fun d hd => hok d (by simp [hd]))⟩
      rw [if_neg (by rw [hf]; simp)]
      intro k n
      rw [defs_addDef, defs_addDef]
      by_cases hn : n = nameOr d.name
      · subst hn
        cases k <;> simp
      · cases k <;> simp [hn, Ne.symm hn]

/-- C36: a function definition is recorded under `functions`, and nothing else is; a body after a
declarator that is not a function records nothing. -/
theorem C36_function_partial (ev : EvalExpr) (s : Store DefVal) (tq : List Str) (tn : Str) (d : Decl) (hok : d.Ok) :
    (declaresFn tn d = true → ∃ t h, procType (evIn ev s) tq tn d = .ok (d.name, t) ∧ addHack t = .ok h ∧
      procFunction ev s tq tn d = addDef s .functions (nameOr d.name) (.func h)) ∧
    (declaresFn tn d = false → procFunction ev s tq tn d = s) := by
  obtain ⟨t, ht, hden, hfn⟩ := C36_isFn (evIn ev s) tq tn d hok
  have hq := ((C03_declarator (evIn ev s) tq tn d).2 _ _ ht).1
  obtain ⟨hh, hhe⟩ := isFn_addHack t hq
  refine ⟨fun h => ⟨t, hh, ht, hhe, ?_⟩, fun h => ?_⟩
  · simp only [procFunction, ht]
    rw [if_pos (by rw [hfn, h]), hhe]
  · simp only [procFunction, ht]
    rw [if_neg (by rw [hfn, h]; simp)]

/-- `int f(int), (*fp)(int), *x;` declares a function, and two variables. -/
example :
    let arg : ArgList := .cons [] c%"int" dAbs none .nil
    let f : Decl := .mk [] none [] false (.name c%"f") true arg []
    let fp : Decl := .mk [] none [] false (.center (.mk [] none [[]] false (.name c%"fp") false .nil [])) true arg []
    let x : Decl := .mk [] none [[]] false (.name c%"x") false .nil []
    f.Ok ∧ fp.Ok ∧ x.Ok ∧ declaresFn c%"int" f = true ∧ declaresFn c%"int" fp = false ∧ declaresFn c%"int" x = false ∧
    let s := procVariable exEvalExpr Store.empty [] c%"int" [f, fp, x] .none
    (s.defs .functions).map (·.1) = [c%"f"] ∧ (s.defs .variables).map (·.1) = [c%"fp", c%"x"] ∧
      (s.defs .values).map (·.1) = [c%"fp", c%"x"] := by
  refine ⟨?_, ?_, ?_, rfl, rfl, rfl, rfl, rfl, rfl⟩ <;>
    simp [Decl.Ok, dAbs, Decl.ConvOk, Core.ConvOk, ArgList.ConvOk, Decl.ArrOk, Core.ArrOk, ArgList.ArrOk,
      Decl.endsConv, Core.endsConv]

/-- C36 fails for `int (__stdcall f)(int)`: `f` is a function, but is recorded as a variable. -/
theorem C36_counterexample_conv :
    let d : Decl := .mk [] none [] false (.center (.mk [] (some c%"__stdcall") [] false (.name c%"f") false .nil []))
      true (.cons [] c%"int" dAbs none .nil) []
    declaresFn c%"int" d = true ∧ d.ConvOk ∧ d.ArrOk ∧
    let s := procVariable exEvalExpr Store.empty [] c%"int" [d] .none
    s.defs .functions = [] ∧ (s.defs .variables).map (·.1) = [c%"f"] := by
  refine ⟨rfl, ?_, ?_, rfl, rfl⟩
  · simp [dAbs, Decl.ConvOk, Core.ConvOk, ArgList.ConvOk, Core.isCenter]
  · simp [dAbs, Decl.ArrOk, Core.ArrOk, ArgList.ArrOk]

/-- C36: all declarators of a list share one initial value: in `int a, b = 3;` both get 3. -/
theorem C36_counterexample_value :
    (procVariable exEvalExpr Store.empty [] c%"int" [dName c%"a", dName c%"b"] (.value c%"3")).defs .values =
      [(c%"a", .value (.int 3)), (c%"b", .value (.int 3))] := by rfl

end Pyclib
