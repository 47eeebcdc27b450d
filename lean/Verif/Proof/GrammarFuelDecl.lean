import Verif.Proof.GrammarTop
import Verif.Proof.GrammarFuel
/-
The bounds of the model of declarations are never reached.
-/
set_option linter.unusedSimpArgs false
namespace Pyclib
open Spec

attribute [local irreducible] exprP exprN delim

/-- A parser with side effects that reads text. -/
def ShS {α : Type} (p : SP α) : Prop := ∀ s x s' a y, p s x = (s', some (a, y)) → y.rest.length < x.rest.length

/-- A parser with side effects that does not go back. -/
def ShL {α : Type} (p : SP α) : Prop := ∀ s x s' a y, p s x = (s', some (a, y)) → y.rest.length ≤ x.rest.length

theorem ShS.le {α : Type} {p : SP α} (h : ShS p) : ShL p := fun s x s' a y e => Nat.le_of_lt (h s x s' a y e)

/-- The recursive elements read text. -/
structure RecSh (r : Rec) : Prop where
  type : ShS r.type
  decl : ShS r.decl
  abs : ShL r.abs

/-- Two parsers agree where fewer than `n` characters are left. -/
def AgreeS {α : Type} (p p' : SP α) (n : Nat) : Prop := ∀ s x, x.rest.length < n → p s x = p' s x

theorem AgreeS.mono {α : Type} {p p' : SP α} {n m : Nat} (h : AgreeS p p' n) (hm : m ≤ n) : AgreeS p p' m :=
  fun s x hx => h s x (by omega)

/-- Two sets of recursive elements agree where fewer than `n` characters are left. -/
structure RecAgree (r r' : Rec) (n : Nat) : Prop where
  type : AgreeS r.type r'.type n
  decl : AgreeS r.decl r'.decl n
  abs : AgreeS r.abs r'.abs n

theorem RecAgree.mono {r r' : Rec} {n m : Nat} (h : RecAgree r r' n) (hm : m ≤ n) : RecAgree r r' m :=
  ⟨h.type.mono hm, h.decl.mono hm, h.abs.mono hm⟩

/-! ### Loops -/

theorem fundLoop_len {cfg : Cfg} (hf : [] ∉ fundWords cfg) : ∀ (n : Nat) (x : Pos),
    (fundLoop cfg n x).2.rest.length ≤ x.rest.length
  | 0, x => Nat.le_refl _
  | n + 1, x => by
    rw [fundLoop]
    cases h : kwl (fundWords cfg) x with
    | none => exact Nat.le_refl _
    | some p => obtain ⟨w, y⟩ := p; have := kwl_len hf h; have := fundLoop_len hf n y; simp only; omega

/-- The bound of `fundLoop` is never reached. -/
theorem fundLoop_fuel {cfg : Cfg} (hf : [] ∉ fundWords cfg) : ∀ (n n' : Nat) (x : Pos), x.rest.length ≤ n →
    x.rest.length ≤ n' → fundLoop cfg n x = fundLoop cfg n' x
  | 0, 0, x, _, _ => rfl
  | 0, n' + 1, x, h, _ => by
    rw [fundLoop, fundLoop]
    cases hk : kwl (fundWords cfg) x with
    | some p => obtain ⟨w, y⟩ := p; have := kwl_len hf hk; omega
    | none => rfl
  | n + 1, 0, x, _, h => by
    rw [fundLoop, fundLoop]
    cases hk : kwl (fundWords cfg) x with
    | some p => obtain ⟨w, y⟩ := p; have := kwl_len hf hk; omega
    | none => rfl
  | n + 1, n' + 1, x, h, h' => by
    rw [fundLoop, fundLoop]
    cases hk : kwl (fundWords cfg) x with
    | some p =>
      obtain ⟨w, y⟩ := p
      have := kwl_len hf hk
      simp only [fundLoop_fuel hf n n' y (by omega) (by omega)]
    | none => rfl

theorem fundP_len {cfg : Cfg} (hf : [] ∉ fundWords cfg) {x : Pos} {w : Str} {y : Pos}
    (h : fundP cfg x = some (w, y)) : y.rest.length < x.rest.length := by
  unfold fundP at h
  cases hk : kwl (fundWords cfg) x with
  | none => simp [hk] at h
  | some p =>
    obtain ⟨w, z⟩ := p
    have h1 := kwl_len hf hk
    have h2 := fundLoop_len hf z.rest.length z
    simp only [hk, Option.some.injEq, Prod.mk.injEq] at h
    obtain ⟨_, rfl⟩ := h
    omega

theorem nested_opt_len (y : Pos) : ((nestedP '(' ')' y).getD y).rest.length ≤ y.rest.length := by
  cases h : nestedP '(' ')' y with
  | none => simp
  | some z => have := nestedP_len h; simp; omega

theorem modLoop_len {mods : List Str} (hm : [] ∉ mods) : ∀ (n : Nat) (x : Pos),
    (modLoop mods n x).rest.length ≤ x.rest.length
  | 0, x => Nat.le_refl _
  | n + 1, x => by
    rw [modLoop]
    cases h : kwl mods x with
    | none => exact Nat.le_refl _
    | some p =>
      obtain ⟨w, y⟩ := p
      have := kwl_len hm h
      have := nested_opt_len y
      have := modLoop_len hm n ((nestedP '(' ')' y).getD y)
      simp only; omega

/-- The bound of `modLoop` is never reached. -/
theorem modLoop_fuel {mods : List Str} (hm : [] ∉ mods) : ∀ (n n' : Nat) (x : Pos), x.rest.length ≤ n →
    x.rest.length ≤ n' → modLoop mods n x = modLoop mods n' x
  | 0, 0, x, _, _ => rfl
  | 0, n' + 1, x, h, _ => by
    rw [modLoop, modLoop]
    cases hk : kwl mods x with
    | some p => obtain ⟨w, y⟩ := p; have := kwl_len hm hk; omega
    | none => rfl
  | n + 1, 0, x, _, h => by
    rw [modLoop, modLoop]
    cases hk : kwl mods x with
    | some p => obtain ⟨w, y⟩ := p; have := kwl_len hm hk; omega
    | none => rfl
  | n + 1, n' + 1, x, h, h' => by
    rw [modLoop, modLoop]
    cases hk : kwl mods x with
    | some p =>
      obtain ⟨w, y⟩ := p
      have := kwl_len hm hk
      have := nested_opt_len y
      simp only [modLoop_fuel hm n n' ((nestedP '(' ')' y).getD y) (by omega) (by omega)]
    | none => rfl

theorem commaLoopS_len {α : Type} {p : SP α} (hp : ShS p) : ∀ (n : Nat) (s : Store DefVal) (x : Pos),
    (commaLoopS p n s x).2.2.rest.length ≤ x.rest.length
  | 0, s, x => Nat.le_refl _
  | n + 1, s, x => by
    rw [commaLoopS]
    cases hl : lit ',' x with
    | none => exact Nat.le_refl _
    | some y =>
      have := lit_len hl
      simp only
      cases h : p s y with
      | mk s1 o =>
        cases o with
        | none => exact Nat.le_refl _
        | some q =>
          obtain ⟨a, z⟩ := q
          have := hp _ _ _ _ _ h
          refine Nat.le_trans (commaLoopS_len hp n s1 z) ?_
          omega

/-- The bound of `commaLoopS` is never reached. -/
theorem commaLoopS_fuel {α : Type} {p p' : SP α} (hp : ShS p) : ∀ (n n' : Nat) (s : Store DefVal) (x : Pos),
    x.rest.length ≤ n → x.rest.length ≤ n' → AgreeS p p' x.rest.length → commaLoopS p n s x = commaLoopS p' n' s x
  | 0, 0, s, x, _, _, _ => rfl
  | 0, n' + 1, s, x, h, _, _ => by
    rw [commaLoopS, commaLoopS]
    cases hl : lit ',' x with
    | none => rfl
    | some y => have := lit_len hl; omega
  | n + 1, 0, s, x, _, h, _ => by
    rw [commaLoopS, commaLoopS]
    cases hl : lit ',' x with
    | none => rfl
    | some y => have := lit_len hl; omega
  | n + 1, n' + 1, s, x, h, h', ha => by
    rw [commaLoopS, commaLoopS]
    cases hl : lit ',' x with
    | none => rfl
    | some y =>
      have h1 := lit_len hl
      simp only
      rw [← ha s y h1]
      cases hy : p s y with
      | mk s1 o =>
        cases o with
        | none => rfl
        | some q =>
          obtain ⟨a, z⟩ := q
          have h2 := hp _ _ _ _ _ hy
          simp only [commaLoopS_fuel hp n n' s1 z (by omega) (by omega) (ha.mono (by omega))]

theorem delimitedS_len {α : Type} {p : SP α} (hp : ShS p) : ShS (delimitedS p) := by
  intro s x s' a y h
  unfold delimitedS at h
  cases hy : p s x with
  | mk s1 o =>
    rw [hy] at h
    cases o with
    | none => simp at h
    | some q =>
      obtain ⟨b, z⟩ := q
      have h1 := hp _ _ _ _ _ hy
      have h2 := commaLoopS_len hp z.rest.length s1 z
      simp only [Prod.mk.injEq, Option.some.injEq] at h
      obtain ⟨_, _, rfl⟩ := h
      exact Nat.lt_of_le_of_lt h2 h1

theorem delimitedS_congr {α : Type} {p p' : SP α} (hp : ShS p) {s : Store DefVal} {x : Pos}
    (ha : AgreeS p p' (x.rest.length + 1)) : delimitedS p s x = delimitedS p' s x := by
  unfold delimitedS
  rw [← ha s x (by omega)]
  cases hy : p s x with
  | mk s1 o =>
    cases o with
    | none => rfl
    | some q =>
      obtain ⟨b, z⟩ := q
      have h1 := hp _ _ _ _ _ hy
      simp only [commaLoopS_fuel hp z.rest.length z.rest.length s1 z (Nat.le_refl _) (Nat.le_refl _)
        (ha.mono (by omega))]

theorem optDelim_len {α : Type} {p : SP α} (hp : ShS p) {s s1 : Store DefVal} {y : Pos} {o : Option (List α × Pos)}
    (h : delimitedS p s y = (s1, o)) : (o.getD ([], y)).2.rest.length ≤ y.rest.length := by
  cases o with
  | none => simp
  | some q => obtain ⟨a, z⟩ := q; have := delimitedS_len hp _ _ _ _ _ h; simp; omega

theorem initP_len (cfg : Cfg) (x : Pos) : (initP cfg x).2.rest.length ≤ x.rest.length := by
  unfold initP
  cases hl : lit '=' x with
  | none => exact Nat.le_refl _
  | some y =>
    have h1 := lit_len hl
    simp only
    cases he : exprP cfg y with
    | some q => obtain ⟨e, z⟩ := q; have := exprP_len cfg _ _ _ he; simp only; omega
    | none =>
      simp only
      cases hb : lit '{' y with
      | none => exact Nat.le_refl _
      | some z =>
        have h2 := lit_len hb
        simp only [Option.bind_some]
        cases hd : delimited (exprP cfg) z with
        | none => exact Nat.le_refl _
        | some q =>
          obtain ⟨es, u⟩ := q
          have h3 := delimited_len (exprP_len cfg) _ _ _ hd
          simp only
          cases hr : delim '}' u with
          | none => simp only [hr]; exact Nat.le_refl _
          | some v => have := delim_len hr; simp only [hr]; omega

theorem storageP_len (x : Pos) : (storageP x).rest.length ≤ x.rest.length := by
  unfold storageP
  cases h : kwl storageWords x with
  | none => exact Nat.le_refl _
  | some p => obtain ⟨w, y⟩ := p; have := kwl_len (by decide) h; simp only; omega

theorem varP_len {g : Gram} {r : Rec} (hr : RecSh r) : ShS (varP g r) := by
  intro s x s' a y h
  have h0 := storageP_len x
  unfold varP at h
  cases ht : r.type s (storageP x) with
  | mk s1 o =>
    rw [ht] at h
    cases o with
    | none => simp at h
    | some q =>
      obtain ⟨⟨tq, tn⟩, z⟩ := q
      have h1 := hr.type _ _ _ _ _ ht
      simp only at h
      cases hd : delimitedS r.decl s1 z with
      | mk s2 o =>
        have h2 := optDelim_len hr.decl hd
        rw [hd] at h
        simp only at h
        have h3 := initP_len g.cfg (o.getD ([], z)).2
        cases hi : initP g.cfg (o.getD ([], z)).2 with
        | mk i u =>
          rw [hi] at h h3
          simp only at h
          cases hv : delim ';' u with
          | none => rw [hv] at h; simp at h
          | some v =>
            rw [hv] at h
            simp only [Prod.mk.injEq, Option.some.injEq] at h
            obtain ⟨_, _, rfl⟩ := h
            have := delim_len hv
            simp only at h3
            omega

theorem varP_congr {g : Gram} {r r' : Rec} (hr : RecSh r) {s : Store DefVal} {x : Pos}
    (ha : RecAgree r r' (x.rest.length + 1)) : varP g r s x = varP g r' s x := by
  have h0 := storageP_len x
  unfold varP
  rw [← ha.type s (storageP x) (by omega)]
  cases ht : r.type s (storageP x) with
  | mk s1 o =>
    cases o with
    | none => rfl
    | some q =>
      obtain ⟨⟨tq, tn⟩, z⟩ := q
      have h1 := hr.type _ _ _ _ _ ht
      simp only
      rw [delimitedS_congr hr.decl (ha.decl.mono (by omega))]

theorem optDecls_len {r : Rec} (hr : RecSh r) {s : Store DefVal} {x : Pos} :
    (optDecls r s x).2.2.rest.length ≤ x.rest.length := by
  unfold optDecls
  cases hd : delimitedS r.decl s x with
  | mk s1 o => exact optDelim_len hr.decl hd

theorem optDecls_congr {r r' : Rec} (hr : RecSh r) {s : Store DefVal} {x : Pos}
    (ha : RecAgree r r' (x.rest.length + 1)) : optDecls r s x = optDecls r' s x := by
  unfold optDecls
  rw [delimitedS_congr hr.decl ha.decl]

theorem bitP_len {r : Rec} (hr : RecSh r) : ShS (bitP r) := by
  intro s x s' a y h
  unfold bitP at h
  cases ht : r.type s x with
  | mk s1 o =>
    rw [ht] at h
    cases o with
    | none => simp at h
    | some q =>
      obtain ⟨⟨tq, tn⟩, z⟩ := q
      have h1 := hr.type _ _ _ _ _ ht
      simp only at h
      have h2 := optDecls_len hr (s := s1) (x := z)
      cases hd : optDecls r s1 z with
      | mk s2 q =>
        obtain ⟨ds, u⟩ := q
        rw [hd] at h h2
        simp only at h h2
        cases hc : delim ':' u with
        | none => simp [hc] at h
        | some v =>
          have h3 := delim_len hc
          simp only [hc, Option.bind_some] at h
          cases hi : integerP v with
          | none => simp [hi] at h
          | some q =>
            obtain ⟨b, w⟩ := q
            have h4 := integerP_len hi
            simp only [hi] at h
            cases he : delim ';' w with
            | none => simp [he] at h
            | some k =>
              have h5 := delim_len he
              simp only [he, Prod.mk.injEq, Option.some.injEq] at h
              obtain ⟨_, _, rfl⟩ := h
              omega

theorem bitP_congr {r r' : Rec} (hr : RecSh r) {s : Store DefVal} {x : Pos}
    (ha : RecAgree r r' (x.rest.length + 1)) : bitP r s x = bitP r' s x := by
  unfold bitP
  rw [← ha.type s x (by omega)]
  cases ht : r.type s x with
  | mk s1 o =>
    cases o with
    | none => rfl
    | some q =>
      obtain ⟨⟨tq, tn⟩, z⟩ := q
      have h1 := hr.type _ _ _ _ _ ht
      simp only
      rw [optDecls_congr hr (ha.mono (by omega))]

theorem methodP_len {r : Rec} (hr : RecSh r) : ShS (methodP r) := by
  intro s x s' a y h
  unfold methodP at h
  cases ht : r.decl s x with
  | mk s1 o =>
    rw [ht] at h
    cases o with
    | none => simp at h
    | some q =>
      obtain ⟨d, z⟩ := q
      have h1 := hr.decl _ _ _ _ _ ht
      simp only at h
      cases hn : nestedP '{' '}' z with
      | none => simp [hn] at h
      | some u =>
        have h2 := nestedP_len hn
        simp [hn] at h
        obtain ⟨_, rfl⟩ := h
        omega

theorem methodP_congr {r r' : Rec} {s : Store DefVal} {x : Pos}
    (ha : RecAgree r r' (x.rest.length + 1)) : methodP r s x = methodP r' s x := by
  unfold methodP
  rw [← ha.decl s x (by omega)]

theorem typedMethodP_len {r : Rec} (hr : RecSh r) : ShS (typedMethodP r) := by
  intro s x s' a y h
  unfold typedMethodP at h
  cases ht : r.type s x with
  | mk s1 o =>
    rw [ht] at h
    cases o with
    | none => simp at h
    | some q =>
      obtain ⟨t, z⟩ := q
      have h1 := hr.type _ _ _ _ _ ht
      simp only at h
      have h2 := methodP_len hr _ _ _ _ _ h
      omega

theorem typedMethodP_congr {r r' : Rec} (hr : RecSh r) {s : Store DefVal} {x : Pos}
    (ha : RecAgree r r' (x.rest.length + 1)) : typedMethodP r s x = typedMethodP r' s x := by
  unfold typedMethodP
  rw [← ha.type s x (by omega)]
  cases ht : r.type s x with
  | mk s1 o =>
    cases o with
    | none => rfl
    | some q =>
      obtain ⟨t, z⟩ := q
      have h1 := hr.type _ _ _ _ _ ht
      exact methodP_congr (ha.mono (by omega))

theorem memberP_len {g : Gram} {r : Rec} (hr : RecSh r) : ShS (memberP g r) := by
  intro s x s' a y h
  unfold memberP at h
  cases h1 : varP g r s x with
  | mk s1 o =>
    rw [h1] at h
    cases o with
    | some q =>
      obtain ⟨v, z⟩ := q
      simp only [Prod.mk.injEq, Option.some.injEq] at h
      obtain ⟨_, _, rfl⟩ := h
      exact varP_len hr _ _ _ _ _ h1
    | none =>
      simp only at h
      cases h2 : bitP r s1 x with
      | mk s2 o =>
        rw [h2] at h
        cases o with
        | some q =>
          obtain ⟨v, z⟩ := q
          simp only [Prod.mk.injEq, Option.some.injEq] at h
          obtain ⟨_, _, rfl⟩ := h
          exact bitP_len hr _ _ _ _ _ h2
        | none =>
          simp only at h
          cases h3 : typedMethodP r s2 x with
          | mk s3 o =>
            rw [h3] at h
            cases o with
            | some q =>
              obtain ⟨v, z⟩ := q
              simp only [Prod.mk.injEq, Option.some.injEq] at h
              obtain ⟨_, _, rfl⟩ := h
              exact typedMethodP_len hr _ _ _ _ _ h3
            | none =>
              simp only at h
              cases h4 : methodP r s3 x with
              | mk s4 o =>
                rw [h4] at h
                cases o with
                | some q =>
                  obtain ⟨v, z⟩ := q
                  simp only [Prod.mk.injEq, Option.some.injEq] at h
                  obtain ⟨_, _, rfl⟩ := h
                  exact methodP_len hr _ _ _ _ _ h4
                | none => simp at h

theorem memberP_congr {g : Gram} {r r' : Rec} (hr : RecSh r) {s : Store DefVal} {x : Pos}
    (ha : RecAgree r r' (x.rest.length + 1)) : memberP g r s x = memberP g r' s x := by
  unfold memberP
  rw [varP_congr hr ha]
  cases varP g r' s x with
  | mk s1 o =>
    cases o with
    | some q => rfl
    | none =>
      simp only
      rw [bitP_congr hr ha]
      cases bitP r' s1 x with
      | mk s2 o =>
        cases o with
        | some q => rfl
        | none =>
          simp only
          rw [typedMethodP_congr hr ha]
          cases typedMethodP r' s2 x with
          | mk s3 o =>
            cases o with
            | some q => rfl
            | none =>
              simp only
              rw [methodP_congr ha]

theorem memberLoop_len {g : Gram} {r : Rec} (hr : RecSh r) : ∀ (n : Nat) (s : Store DefVal) (x : Pos),
    (memberLoop g r n s x).2.2.rest.length ≤ x.rest.length
  | 0, s, x => Nat.le_refl _
  | n + 1, s, x => by
    rw [memberLoop]
    cases h : memberP g r s x with
    | mk s1 o =>
      cases o with
      | none => exact Nat.le_refl _
      | some q =>
        obtain ⟨m, y⟩ := q
        have := memberP_len hr _ _ _ _ _ h
        refine Nat.le_trans (memberLoop_len (g := g) hr n s1 y) ?_
        omega

/-- The bound of `memberLoop` is never reached. -/
theorem memberLoop_fuel {g : Gram} {r r' : Rec} (hr : RecSh r) : ∀ (n n' : Nat) (s : Store DefVal) (x : Pos),
    x.rest.length < n → x.rest.length < n' → RecAgree r r' (x.rest.length + 1) →
    memberLoop g r n s x = memberLoop g r' n' s x
  | 0, _, s, x, h, _, _ => by omega
  | n + 1, 0, s, x, _, h, _ => by omega
  | n + 1, n' + 1, s, x, h, h', ha => by
    rw [memberLoop, memberLoop]
    rw [← memberP_congr hr ha]
    cases hm : memberP g r s x with
    | mk s1 o =>
      cases o with
      | none => rfl
      | some q =>
        obtain ⟨m, y⟩ := q
        have h1 := memberP_len hr _ _ _ _ _ hm
        simp only [memberLoop_fuel (g := g) hr n n' s1 y (by omega) (by omega) (ha.mono (by omega))]

theorem bodyP_len {g : Gram} {r : Rec} (hr : RecSh r) : ShS (bodyP g r) := by
  intro s x s' a y h
  unfold bodyP at h
  cases hl : delim '{' x with
  | none => simp [hl] at h
  | some z =>
    have h1 := delim_len hl
    simp only [hl] at h
    cases hm : memberP g r s z with
    | mk s1 o =>
      rw [hm] at h
      cases o with
      | none => simp at h
      | some q =>
        obtain ⟨m, u⟩ := q
        have h2 := memberP_len hr _ _ _ _ _ hm
        simp only at h
        have h3 := memberLoop_len (g := g) hr (u.rest.length + 1) s1 u
        cases hml : memberLoop g r (u.rest.length + 1) s1 u with
        | mk s2 q =>
          obtain ⟨ms, v⟩ := q
          rw [hml] at h h3
          simp only at h h3
          cases hc : delim '}' v with
          | none => simp [hc] at h
          | some w =>
            have h4 := delim_len hc
            simp [hc] at h
            obtain ⟨_, _, rfl⟩ := h
            omega

theorem bodyP_congr {g : Gram} {r r' : Rec} (hr : RecSh r) {s : Store DefVal} {x : Pos}
    (ha : RecAgree r r' x.rest.length) : bodyP g r s x = bodyP g r' s x := by
  unfold bodyP
  cases hl : delim '{' x with
  | none => rfl
  | some z =>
    have h1 := delim_len hl
    simp only
    rw [← memberP_congr hr (ha.mono (by omega))]
    cases hm : memberP g r s z with
    | mk s1 o =>
      cases o with
      | none => rfl
      | some q =>
        obtain ⟨m, u⟩ := q
        have h2 := memberP_len hr _ _ _ _ _ hm
        simp only
        rw [memberLoop_fuel hr (u.rest.length + 1) (u.rest.length + 1) s1 u (by omega) (by omega) (ha.mono (by omega))]

/-! ### Types -/

theorem optIdent_len (cfg : Cfg) (x : Pos) : (optIdent cfg x).2.rest.length ≤ x.rest.length := by
  unfold optIdent
  cases h : identP cfg x with
  | none => exact Nat.le_refl _
  | some p => obtain ⟨i, y⟩ := p; have := identP_len h; simp only; omega

theorem structKw_len {x : Pos} {u : Bool} {y : Pos} (h : structKw x = some (u, y)) :
    y.rest.length < x.rest.length := by
  unfold structKw at h
  cases hs : keyword c%"struct" x with
  | some z =>
    simp only [hs, Option.some.injEq, Prod.mk.injEq] at h
    obtain ⟨_, rfl⟩ := h
    exact keyword_len (by decide) hs
  | none =>
    simp only [hs] at h
    cases hu : keyword c%"union" x with
    | none => simp [hu] at h
    | some z =>
      simp [hu] at h
      obtain ⟨_, rfl⟩ := h
      exact keyword_len (by decide) hu

theorem structP_len {g : Gram} {r : Rec} (hr : RecSh r) : ShS (structP g r) := by
  intro s x s' a y h
  unfold structP at h
  cases hk : structKw x with
  | none => simp [hk] at h
  | some q =>
    obtain ⟨u, z⟩ := q
    have h1 := structKw_len hk
    simp only [hk] at h
    have h2 := optIdent_len g.cfg z
    cases ho : optIdent g.cfg z with
    | mk name v =>
      rw [ho] at h h2
      simp only at h h2
      cases hb : bodyP g r s v with
      | mk s1 o =>
        rw [hb] at h
        cases o with
        | some q =>
          obtain ⟨ms, w⟩ := q
          have h3 := bodyP_len hr _ _ _ _ _ hb
          simp only [structP.finish, Prod.mk.injEq, Option.some.injEq] at h
          obtain ⟨_, _, rfl⟩ := h
          omega
        | none =>
          simp only at h
          cases hi : identP g.cfg z with
          | none => simp [hi] at h
          | some q =>
            obtain ⟨i, w⟩ := q
            have h3 := identP_len hi
            simp only [hi, structP.finish, Prod.mk.injEq, Option.some.injEq] at h
            obtain ⟨_, _, rfl⟩ := h
            omega

theorem structP_congr {g : Gram} {r r' : Rec} (hr : RecSh r) {s : Store DefVal} {x : Pos}
    (ha : RecAgree r r' x.rest.length) : structP g r s x = structP g r' s x := by
  unfold structP
  cases hk : structKw x with
  | none => rfl
  | some q =>
    obtain ⟨u, z⟩ := q
    have h1 := structKw_len hk
    have h2 := optIdent_len g.cfg z
    simp only
    cases ho : optIdent g.cfg z with
    | mk name v =>
      rw [ho] at h2
      simp only at h2 ⊢
      rw [bodyP_congr hr (ha.mono (by omega))]

theorem enumeratorP_len (cfg : Cfg) : Sh (enumeratorP cfg) := by
  intro x a y h
  unfold enumeratorP at h
  cases hi : identP cfg x with
  | none => simp [hi] at h
  | some q =>
    obtain ⟨i, z⟩ := q
    have h1 := identP_len hi
    simp only [hi] at h
    cases hl : lit '=' z with
    | none =>
      simp only [hl, Option.bind_none, Option.some.injEq, Prod.mk.injEq] at h
      obtain ⟨_, rfl⟩ := h
      exact h1
    | some u =>
      have h2 := lit_len hl
      simp only [hl, Option.bind_some] at h
      cases he : exprP cfg u with
      | none =>
        simp only [he, Option.some.injEq, Prod.mk.injEq] at h
        obtain ⟨_, rfl⟩ := h
        exact h1
      | some q =>
        obtain ⟨e, v⟩ := q
        have h3 := exprP_len cfg _ _ _ he
        simp only [he, Option.some.injEq, Prod.mk.injEq] at h
        obtain ⟨_, rfl⟩ := h
        omega

theorem enumBodyP_len (cfg : Cfg) : Sh (enumBodyP cfg) := by
  intro x a y h
  unfold enumBodyP at h
  cases hl : delim '{' x with
  | none => simp [hl] at h
  | some z =>
    have h1 := delim_len hl
    simp only [hl, Option.bind_some] at h
    cases hd : delimited (enumeratorP cfg) z with
    | none => simp [hd] at h
    | some q =>
      obtain ⟨ms, u⟩ := q
      have h2 := delimited_len (enumeratorP_len cfg) _ _ _ hd
      simp only [hd] at h
      have h3 : ((delim ',' u).getD u).rest.length ≤ u.rest.length := by
        cases hc : delim ',' u with
        | none => simp
        | some v => have := delim_len hc; simp; omega
      cases hr : delim '}' ((delim ',' u).getD u) with
      | none => simp [hr] at h
      | some v =>
        have h4 := delim_len hr
        simp [hr] at h
        obtain ⟨_, rfl⟩ := h
        omega

theorem enumP_len {g : Gram} : ShS (enumP g) := by
  intro s x s' a y h
  unfold enumP at h
  cases hk : keyword c%"enum" x with
  | none => simp [hk] at h
  | some z =>
    have h1 := keyword_len (by decide) hk
    simp only [hk] at h
    have h2 := optIdent_len g.cfg z
    cases hb : enumBodyP g.cfg (optIdent g.cfg z).2 with
    | some q =>
      obtain ⟨ms, u⟩ := q
      have h3 := enumBodyP_len _ _ _ _ hb
      simp only [hb, enumP.finish, Prod.mk.injEq, Option.some.injEq] at h
      obtain ⟨_, _, rfl⟩ := h
      omega
    | none =>
      simp only [hb] at h
      cases hi : identP g.cfg z with
      | none => simp [hi] at h
      | some q =>
        obtain ⟨i, w⟩ := q
        have h3 := identP_len hi
        simp only [hi, enumP.finish, Prod.mk.injEq, Option.some.injEq] at h
        obtain ⟨_, _, rfl⟩ := h
        omega

theorem typeNameP_len {g : Gram} (hf : [] ∉ fundWords g.cfg) {r : Rec} (hr : RecSh r) : ShS (typeNameP g r) := by
  intro s x s' a y h
  unfold typeNameP at h
  cases h1 : fundP g.cfg x with
  | some p =>
    obtain ⟨w, z⟩ := p
    simp only [h1, Prod.mk.injEq, Option.some.injEq] at h
    obtain ⟨_, _, rfl⟩ := h
    exact fundP_len hf h1
  | none =>
    simp only [h1] at h
    cases h2 : identP g.cfg x with
    | some p =>
      obtain ⟨w, z⟩ := p
      simp only [h2, Prod.mk.injEq, Option.some.injEq] at h
      obtain ⟨_, _, rfl⟩ := h
      exact identP_len h2
    | none =>
      simp only [h2] at h
      cases h3 : structP g r s x with
      | mk s1 o =>
        rw [h3] at h
        cases o with
        | some p =>
          obtain ⟨w, z⟩ := p
          simp only [Prod.mk.injEq, Option.some.injEq] at h
          obtain ⟨_, _, rfl⟩ := h
          exact structP_len hr _ _ _ _ _ h3
        | none =>
          simp only at h
          exact enumP_len _ _ _ _ _ h

theorem typeNameP_congr {g : Gram} {r r' : Rec} (hr : RecSh r) {s : Store DefVal} {x : Pos}
    (ha : RecAgree r r' x.rest.length) : typeNameP g r s x = typeNameP g r' s x := by
  unfold typeNameP
  rw [structP_congr hr ha]

theorem typeSpecP_len {g : Gram} (hf : [] ∉ fundWords g.cfg) (hm : [] ∉ g.mods) {r : Rec} (hr : RecSh r) :
    ShS (typeSpecP g r) := by
  intro s x s' a y h
  unfold typeSpecP at h
  have h0 := qualP_len (cfg := g.cfg) x
  cases h1 : typeNameP g r s (qualP g.cfg x).2 with
  | mk s1 o =>
    rw [h1] at h
    cases o with
    | none => simp at h
    | some q =>
      obtain ⟨n, z⟩ := q
      have h2 := typeNameP_len hf hr _ _ _ _ _ h1
      have h3 := modLoop_len hm z.rest.length z
      simp only [Prod.mk.injEq, Option.some.injEq] at h
      obtain ⟨_, _, rfl⟩ := h
      omega

theorem typeSpecP_congr {g : Gram} {r r' : Rec} (hr : RecSh r) {s : Store DefVal} {x : Pos}
    (ha : RecAgree r r' x.rest.length) : typeSpecP g r s x = typeSpecP g r' s x := by
  have h0 := qualP_len (cfg := g.cfg) x
  unfold typeSpecP
  rw [typeNameP_congr hr (ha.mono h0)]

/-! ### Declarators -/

theorem convP_len (x : Pos) : (convP x).2.rest.length ≤ x.rest.length := by
  unfold convP
  cases h : keyword c%"__cdecl" x with
  | some y => have := keyword_len (by decide) h; simp only; omega
  | none =>
    simp only
    cases h2 : keyword c%"__stdcall" x with
    | some y => have := keyword_len (by decide) h2; simp only; omega
    | none => exact Nat.le_refl _

theorem ptrLoop_len {cfg : Cfg} : ∀ (n : Nat) (x : Pos), (ptrLoop cfg n x).2.rest.length ≤ x.rest.length
  | 0, x => Nat.le_refl _
  | n + 1, x => by
    rw [ptrLoop]
    cases h : lit '*' x with
    | none => exact Nat.le_refl _
    | some y =>
      have := lit_len h
      have := qualP_len (cfg := cfg) y
      have := ptrLoop_len (cfg := cfg) n (qualP cfg y).2
      simp only; omega

/-- The bound of `ptrLoop` is never reached. -/
theorem ptrLoop_fuel {cfg : Cfg} : ∀ (n n' : Nat) (x : Pos), x.rest.length ≤ n → x.rest.length ≤ n' →
    ptrLoop cfg n x = ptrLoop cfg n' x
  | 0, 0, x, _, _ => rfl
  | 0, n' + 1, x, h, _ => by
    rw [ptrLoop, ptrLoop]
    cases hk : lit '*' x with
    | some y => have := lit_len hk; omega
    | none => rfl
  | n + 1, 0, x, _, h => by
    rw [ptrLoop, ptrLoop]
    cases hk : lit '*' x with
    | some y => have := lit_len hk; omega
    | none => rfl
  | n + 1, n' + 1, x, h, h' => by
    rw [ptrLoop, ptrLoop]
    cases hk : lit '*' x with
    | some y =>
      have := lit_len hk
      have := qualP_len (cfg := cfg) y
      simp only [ptrLoop_fuel (cfg := cfg) n n' (qualP cfg y).2 (by omega) (by omega)]
    | none => rfl

theorem optExpr_len (cfg : Cfg) (y : Pos) : ((exprP cfg y).getD (c%"-1", y)).2.rest.length ≤ y.rest.length := by
  cases h : exprP cfg y with
  | none => simp
  | some q => obtain ⟨e, z⟩ := q; have := exprP_len cfg _ _ _ h; simp; omega

theorem arrayLoop_len {cfg : Cfg} : ∀ (n : Nat) (x : Pos), (arrayLoop cfg n x).2.rest.length ≤ x.rest.length
  | 0, x => Nat.le_refl _
  | n + 1, x => by
    rw [arrayLoop_succ]
    cases h : lit '[' x with
    | none => exact Nat.le_refl _
    | some y =>
      have h1 := lit_len h
      have h2 := optExpr_len cfg y
      simp only
      cases hc : delim ']' ((exprP cfg y).getD (c%"-1", y)).2 with
      | none => simp only [hc]; exact Nat.le_refl _
      | some z =>
        have h3 := delim_len hc
        have h4 := arrayLoop_len (cfg := cfg) n z
        simp only [hc]; omega

/-- The bound of `arrayLoop` is never reached. -/
theorem arrayLoop_fuel {cfg : Cfg} : ∀ (n n' : Nat) (x : Pos), x.rest.length ≤ n → x.rest.length ≤ n' →
    arrayLoop cfg n x = arrayLoop cfg n' x
  | 0, 0, x, _, _ => rfl
  | 0, n' + 1, x, h, _ => by
    rw [arrayLoop_succ]
    cases hk : lit '[' x with
    | some y => have := lit_len hk; omega
    | none => rfl
  | n + 1, 0, x, _, h => by
    rw [arrayLoop_succ]
    cases hk : lit '[' x with
    | some y => have := lit_len hk; omega
    | none => rfl
  | n + 1, n' + 1, x, h, h' => by
    rw [arrayLoop_succ, arrayLoop_succ]
    cases hk : lit '[' x with
    | some y =>
      have h1 := lit_len hk
      have h2 := optExpr_len cfg y
      simp only
      cases hc : delim ']' ((exprP cfg y).getD (c%"-1", y)).2 with
      | none => simp only [hc]
      | some z =>
        have h3 := delim_len hc
        simp only [hc, arrayLoop_fuel (cfg := cfg) n n' z (by omega) (by omega)]
    | none => rfl

theorem defaultP_len (cfg : Cfg) (x : Pos) : (defaultP cfg x).2.rest.length ≤ x.rest.length := by
  unfold defaultP
  cases h : lit '=' x with
  | none => exact Nat.le_refl _
  | some y =>
    have h1 := lit_len h
    simp only [Option.bind_some]
    cases he : exprP cfg y with
    | none => exact Nat.le_refl _
    | some q => obtain ⟨e, z⟩ := q; have := exprP_len cfg _ _ _ he; simp only; omega

theorem paramP_len {g : Gram} {r : Rec} (hr : RecSh r) {dp : SP Decl} (hd : ShL dp) : ShS (paramP g r dp) := by
  intro s x s' a y h
  unfold paramP at h
  cases ht : r.type s x with
  | mk s1 o =>
    rw [ht] at h
    cases o with
    | none => simp at h
    | some q =>
      obtain ⟨⟨tq, tn⟩, z⟩ := q
      have h1 := hr.type _ _ _ _ _ ht
      simp only at h
      cases hdp : dp s1 z with
      | mk s2 o =>
        rw [hdp] at h
        cases o with
        | none => simp at h
        | some q =>
          obtain ⟨d, u⟩ := q
          have h2 := hd _ _ _ _ _ hdp
          have h3 := defaultP_len g.cfg u
          simp only [Prod.mk.injEq, Option.some.injEq] at h
          obtain ⟨_, _, rfl⟩ := h
          omega

theorem paramP_congr {g : Gram} {r r' : Rec} (hr : RecSh r) {dp dp' : SP Decl} {n : Nat} (ha : RecAgree r r' n)
    (hd : AgreeS dp dp' n) : AgreeS (paramP g r dp) (paramP g r' dp') n := by
  intro s x hx
  unfold paramP
  rw [← ha.type s x hx]
  cases ht : r.type s x with
  | mk s1 o =>
    cases o with
    | none => rfl
    | some q =>
      obtain ⟨⟨tq, tn⟩, z⟩ := q
      have h1 := hr.type _ _ _ _ _ ht
      simp only
      rw [hd s1 z (by omega)]

theorem argsP_len {g : Gram} {r : Rec} (hr : RecSh r) {dp : SP Decl} (hd : ShL dp) (s : Store DefVal) (x : Pos) :
    (argsP g r dp s x).2.2.rest.length ≤ x.rest.length := by
  unfold argsP
  cases hl : lit '(' x with
  | none => exact Nat.le_refl _
  | some y =>
    have h1 := lit_len hl
    simp only
    cases hp : delimitedS (paramP g r dp) s y with
    | mk s1 o =>
      have h2 := optDelim_len (paramP_len hr hd) hp
      simp only
      cases hc : delim ')' (o.getD ([], y)).2 with
      | none => simp only [hc]; exact Nat.le_refl _
      | some u => have h3 := delim_len hc; simp only [hc]; omega

theorem argsP_congr {g : Gram} {r r' : Rec} (hr : RecSh r) {dp dp' : SP Decl} (hdl : ShL dp) {s : Store DefVal} {x : Pos}
    (ha : RecAgree r r' x.rest.length) (hd : AgreeS dp dp' x.rest.length) :
    argsP g r dp s x = argsP g r' dp' s x := by
  unfold argsP
  cases hl : lit '(' x with
  | none => rfl
  | some y =>
    have h1 := lit_len hl
    simp only
    rw [delimitedS_congr (paramP_len hr hdl) ((paramP_congr hr ha hd).mono (by omega))]

theorem anyDecl_len {r : Rec} (hr : RecSh r) : ShL (anyDecl r) := by
  intro s x s' a y h
  unfold anyDecl at h
  cases hd : r.decl s x with
  | mk s1 o =>
    rw [hd] at h
    cases o with
    | some p =>
      obtain ⟨d, z⟩ := p
      simp only [Prod.mk.injEq, Option.some.injEq] at h
      obtain ⟨_, _, rfl⟩ := h
      exact Nat.le_of_lt (hr.decl _ _ _ _ _ hd)
    | none => exact hr.abs _ _ _ _ _ h

theorem anyDecl_congr {r r' : Rec} {n : Nat} (ha : RecAgree r r' n) : AgreeS (anyDecl r) (anyDecl r') n := by
  intro s x hx
  unfold anyDecl
  rw [← ha.decl s x hx]
  cases r.decl s x with
  | mk s1 o =>
    cases o with
    | some p => rfl
    | none => exact ha.abs s1 x hx

theorem refName_len {g : Gram} {x : Pos} {p : Bool × Core} {y : Pos} (h : declCoreP.refName g x = some (p, y)) :
    y.rest.length < x.rest.length := by
  unfold declCoreP.refName at h
  cases hl : lit '&' x with
  | some z =>
    have h1 := lit_len hl
    simp only [hl] at h
    cases hi : identP g.cfg z with
    | none => simp [hi] at h
    | some q =>
      obtain ⟨i, u⟩ := q
      have h2 := identP_len hi
      simp [hi] at h
      obtain ⟨_, rfl⟩ := h
      omega
  | none =>
    simp only [hl] at h
    cases hi : identP g.cfg x with
    | none => simp [hi] at h
    | some q =>
      obtain ⟨i, u⟩ := q
      have h2 := identP_len hi
      simp [hi] at h
      obtain ⟨_, rfl⟩ := h
      omega

theorem declCoreP_len {g : Gram} {r : Rec} (hr : RecSh r) : ShS (declCoreP g r) := by
  intro s x s' a y h
  unfold declCoreP at h
  cases hn : declCoreP.refName g x with
  | some p =>
    obtain ⟨q, z⟩ := p
    simp only [hn, Prod.mk.injEq, Option.some.injEq] at h
    obtain ⟨_, _, rfl⟩ := h
    exact refName_len hn
  | none =>
    simp only [hn] at h
    cases hl : lit '(' x with
    | none => simp [hl] at h
    | some z =>
      have h1 := lit_len hl
      simp only [hl] at h
      cases hd : r.decl s z with
      | mk s1 o =>
        rw [hd] at h
        cases o with
        | none => simp at h
        | some q =>
          obtain ⟨d, u⟩ := q
          have h2 := hr.decl _ _ _ _ _ hd
          simp only at h
          cases hc : delim ')' u with
          | none => simp [hc] at h
          | some v =>
            have h3 := delim_len hc
            simp [hc] at h
            obtain ⟨_, _, rfl⟩ := h
            omega

theorem declCoreP_congr {g : Gram} {r r' : Rec} {s : Store DefVal} {x : Pos}
    (ha : RecAgree r r' x.rest.length) : declCoreP g r s x = declCoreP g r' s x := by
  unfold declCoreP
  cases hn : declCoreP.refName g x with
  | some p => rfl
  | none =>
    simp only
    cases hl : lit '(' x with
    | none => rfl
    | some z =>
      simp only
      rw [ha.decl s z (lit_len hl)]

theorem declStart_len (g : Gram) (x : Pos) :
    (ptrLoop g.cfg (convP (qualP g.cfg x).2).2.rest.length (convP (qualP g.cfg x).2).2).2.rest.length ≤
      x.rest.length := by
  have h1 := qualP_len (cfg := g.cfg) x
  have h2 := convP_len (qualP g.cfg x).2
  have h3 := ptrLoop_len (cfg := g.cfg) (convP (qualP g.cfg x).2).2.rest.length (convP (qualP g.cfg x).2).2
  omega

theorem declP_len {g : Gram} {r : Rec} (hr : RecSh r) : ShS (declP g r) := by
  intro s x s' a y h
  unfold declP at h
  simp only at h
  have h0 := declStart_len g x
  revert h h0
  generalize ptrLoop g.cfg (convP (qualP g.cfg x).2).2.rest.length (convP (qualP g.cfg x).2).2 = p
  intro h h0
  cases hc : declCoreP g r s p.2 with
  | mk s1 o =>
    rw [hc] at h
    cases o with
    | none => simp at h
    | some q =>
      obtain ⟨⟨ref, core⟩, z⟩ := q
      have h1 := declCoreP_len hr _ _ _ _ _ hc
      simp only at h
      have h2 := argsP_len (g := g) hr (anyDecl_len hr) s1 z
      cases ha : argsP g r (anyDecl r) s1 z with
      | mk s2 q =>
        obtain ⟨⟨b, as⟩, u⟩ := q
        rw [ha] at h h2
        simp only [Prod.mk.injEq, Option.some.injEq] at h h2
        have h3 := arrayLoop_len (cfg := g.cfg) u.rest.length u
        obtain ⟨_, _, rfl⟩ := h
        omega

theorem declP_congr {g : Gram} {r r' : Rec} (hr : RecSh r) {s : Store DefVal} {x : Pos}
    (ha : RecAgree r r' x.rest.length) : declP g r s x = declP g r' s x := by
  unfold declP
  have h0 := declStart_len g x
  simp only
  revert h0
  generalize ptrLoop g.cfg (convP (qualP g.cfg x).2).2.rest.length (convP (qualP g.cfg x).2).2 = p
  intro h0
  rw [← declCoreP_congr (ha.mono h0)]
  cases hc : declCoreP g r s p.2 with
  | mk s1 o =>
    cases o with
    | none => rfl
    | some q =>
      obtain ⟨⟨ref, core⟩, z⟩ := q
      have h1 := declCoreP_len hr _ _ _ _ _ hc
      simp only
      rw [argsP_congr hr (anyDecl_len hr) (ha.mono (by omega)) (anyDecl_congr (ha.mono (by omega)))]

theorem absStart_len (g : Gram) (x : Pos) :
    ((lit '&' (ptrLoop g.cfg (qualP g.cfg x).2.rest.length (qualP g.cfg x).2).2).getD
      (ptrLoop g.cfg (qualP g.cfg x).2.rest.length (qualP g.cfg x).2).2).rest.length ≤ x.rest.length := by
  have h1 := qualP_len (cfg := g.cfg) x
  have h3 := ptrLoop_len (cfg := g.cfg) (qualP g.cfg x).2.rest.length (qualP g.cfg x).2
  cases hl : lit '&' (ptrLoop g.cfg (qualP g.cfg x).2.rest.length (qualP g.cfg x).2).2 with
  | none => simp; omega
  | some z => have := lit_len hl; simp; omega

theorem absP_len {g : Gram} {r : Rec} (hr : RecSh r) : ShL (absP g r) := by
  intro s x s' a y h
  unfold absP at h
  simp only at h
  have h0 := absStart_len g x
  revert h h0
  generalize ptrLoop g.cfg (qualP g.cfg x).2.rest.length (qualP g.cfg x).2 = p
  generalize (lit '&' p.2).getD p.2 = z
  intro h h0
  have h2 := argsP_len (g := g) hr hr.abs s z
  cases ha : argsP g r r.abs s z with
  | mk s2 q =>
    obtain ⟨⟨b, as⟩, u⟩ := q
    rw [ha] at h h2
    simp only [Prod.mk.injEq, Option.some.injEq] at h h2
    have h3 := arrayLoop_len (cfg := g.cfg) u.rest.length u
    obtain ⟨_, _, rfl⟩ := h
    omega

theorem absP_congr {g : Gram} {r r' : Rec} (hr : RecSh r) {s : Store DefVal} {x : Pos}
    (ha : RecAgree r r' x.rest.length) : absP g r s x = absP g r' s x := by
  unfold absP
  have h0 := absStart_len g x
  simp only
  rw [argsP_congr hr hr.abs (ha.mono h0) ((ha.mono h0).abs)]

/-! ### The recursive elements -/

/-- There is no empty word among the fundamental types and the modifiers. -/
structure NoEmpty (g : Gram) : Prop where
  fund : [] ∉ fundWords g.cfg
  mods : [] ∉ g.mods

theorem gram_len {g : Gram} (hg : NoEmpty g) : ∀ n, RecSh (gram g n)
  | 0 => ⟨fun s x s' a y h => by
      rw [show (gram g 0).type s x = (s, none) from rfl] at h; simp at h, fun s x s' a y h => by
      rw [show (gram g 0).decl s x = (s, none) from rfl] at h; simp at h, fun s x s' a y h => by
      rw [show (gram g 0).abs s x = (s, none) from rfl] at h; simp at h⟩
  | n + 1 => by
    rw [gram_succ]
    exact ⟨typeSpecP_len hg.fund hg.mods (gram_len hg n), declP_len (gram_len hg n), absP_len (gram_len hg n)⟩

/-- The bound of `gram` is never reached. -/
theorem gram_fuel {g : Gram} (hg : NoEmpty g) : ∀ (n n' N : Nat), N ≤ n → N ≤ n' → RecAgree (gram g n) (gram g n') N
  | 0, n', N, h, _ => ⟨fun s x hx => by omega, fun s x hx => by omega, fun s x hx => by omega⟩
  | n + 1, 0, N, _, h => ⟨fun s x hx => by omega, fun s x hx => by omega, fun s x hx => by omega⟩
  | n + 1, n' + 1, N, h, h' => by
    have hl := gram_len hg n
    have ih : ∀ x : Pos, x.rest.length < N → RecAgree (gram g n) (gram g n') x.rest.length :=
      fun x hx => gram_fuel hg n n' _ (by omega) (by omega)
    rw [gram_succ, gram_succ]
    exact ⟨fun s x hx => typeSpecP_congr hl (ih x hx), fun s x hx => declP_congr hl (ih x hx),
      fun s x hx => absP_congr hl (ih x hx)⟩

/-! ### Top level -/

theorem typedefP_len {r : Rec} (hr : RecSh r) : ShS (typedefP r) := by
  intro s x s' a y h
  unfold typedefP at h
  cases hk : keyword c%"typedef" x with
  | none => simp [hk] at h
  | some z =>
    have h1 := keyword_len (by decide) hk
    simp only [hk] at h
    cases ht : r.type s z with
    | mk s1 o =>
      rw [ht] at h
      cases o with
      | none => simp at h
      | some q =>
        obtain ⟨t, u⟩ := q
        have h2 := hr.type _ _ _ _ _ ht
        simp only at h
        cases hd : delimitedS r.decl s1 u with
        | mk s2 o =>
          rw [hd] at h
          cases o with
          | none => simp at h
          | some q =>
            obtain ⟨ds, v⟩ := q
            have h3 := delimitedS_len hr.decl _ _ _ _ _ hd
            simp only at h
            cases hc : delim ';' v with
            | none => simp [hc] at h
            | some w =>
              have h4 := delim_len hc
              simp [hc] at h
              obtain ⟨_, _, rfl⟩ := h
              omega

theorem typedefP_congr {r r' : Rec} (hr : RecSh r) {s : Store DefVal} {x : Pos}
    (ha : RecAgree r r' (x.rest.length + 1)) : typedefP r s x = typedefP r' s x := by
  unfold typedefP
  cases hk : keyword c%"typedef" x with
  | none => rfl
  | some z =>
    have h1 := keyword_len (by decide) hk
    simp only
    rw [← ha.type s z (by omega)]
    cases ht : r.type s z with
    | mk s1 o =>
      cases o with
      | none => rfl
      | some q =>
        obtain ⟨t, u⟩ := q
        have h2 := hr.type _ _ _ _ _ ht
        simp only
        rw [delimitedS_congr hr.decl (ha.decl.mono (by omega))]

theorem functionP_len {r : Rec} (hr : RecSh r) : ShS (functionP r) := by
  intro s x s' a y h
  have h0 := storageP_len x
  unfold functionP at h
  cases ht : r.type s (storageP x) with
  | mk s1 o =>
    rw [ht] at h
    cases o with
    | none => simp at h
    | some q =>
      obtain ⟨t, z⟩ := q
      have h1 := hr.type _ _ _ _ _ ht
      simp only at h
      cases hd : r.decl s1 z with
      | mk s2 o =>
        rw [hd] at h
        cases o with
        | none => simp at h
        | some q =>
          obtain ⟨d, u⟩ := q
          have h2 := hr.decl _ _ _ _ _ hd
          simp only at h
          cases hn : nestedP '{' '}' u with
          | none => simp [hn] at h
          | some v =>
            have h3 := nestedP_len hn
            simp [hn] at h
            obtain ⟨_, _, rfl⟩ := h
            omega

theorem functionP_congr {r r' : Rec} (hr : RecSh r) {s : Store DefVal} {x : Pos}
    (ha : RecAgree r r' (x.rest.length + 1)) : functionP r s x = functionP r' s x := by
  have h0 := storageP_len x
  unfold functionP
  rw [← ha.type s (storageP x) (by omega)]
  cases ht : r.type s (storageP x) with
  | mk s1 o =>
    cases o with
    | none => rfl
    | some q =>
      obtain ⟨t, z⟩ := q
      have h1 := hr.type _ _ _ _ _ ht
      simp only
      rw [ha.decl s1 z (by omega)]

theorem topP_len {g : Gram} {r : Rec} (hr : RecSh r) {s s' : Store DefVal} {x y : Pos}
    (h : topP g r s x = (s', .next y)) : y.rest.length < x.rest.length := by
  unfold topP at h
  cases h1 : typedefP r s x with
  | mk s1 o =>
    rw [h1] at h
    cases o with
    | some q =>
      obtain ⟨⟨⟨tq, tn⟩, ds⟩, z⟩ := q
      have := typedefP_len hr _ _ _ _ _ h1
      simp only at h
      cases hp : procTypedef g.ev s1 tq tn ds with
      | mk s2 e =>
        rw [hp] at h
        cases e with
        | none => simp only [Prod.mk.injEq, Top.next.injEq] at h; obtain ⟨_, rfl⟩ := h; exact this
        | some e => simp at h
    | none =>
      simp only at h
      cases h2 : varP g r s1 x with
      | mk s2 o =>
        rw [h2] at h
        cases o with
        | some q =>
          obtain ⟨v, z⟩ := q
          have := varP_len hr _ _ _ _ _ h2
          simp only [Prod.mk.injEq, Top.next.injEq] at h
          obtain ⟨_, rfl⟩ := h
          exact this
        | none =>
          simp only at h
          cases h3 : functionP r s2 x with
          | mk s3 o =>
            rw [h3] at h
            cases o with
            | some q =>
              obtain ⟨⟨⟨tq, tn⟩, d⟩, z⟩ := q
              have := functionP_len hr _ _ _ _ _ h3
              simp only [Prod.mk.injEq, Top.next.injEq] at h
              obtain ⟨_, rfl⟩ := h
              exact this
            | none => simp at h

theorem topP_congr {g : Gram} {r r' : Rec} (hr : RecSh r) {s : Store DefVal} {x : Pos}
    (ha : RecAgree r r' (x.rest.length + 1)) : topP g r s x = topP g r' s x := by
  unfold topP
  rw [typedefP_congr hr ha]
  cases typedefP r' s x with
  | mk s1 o =>
    cases o with
    | some q => rfl
    | none =>
      simp only
      rw [varP_congr hr ha]
      cases varP g r' s1 x with
      | mk s2 o =>
        cases o with
        | some q => rfl
        | none =>
          simp only
          rw [functionP_congr hr ha]

/-- The bounds of `scan` are never reached. -/
theorem scan_fuel {g : Gram} (hg : NoEmpty g) (n n' : Nat) : ∀ (k k' : Nat) (s : Store DefVal) (x : Pos),
    x.rest.length < n → x.rest.length < n' → x.rest.length < k → x.rest.length < k' →
    scan g n k s x = scan g n' k' s x
  | 0, _, s, x, _, _, h, _ => by omega
  | k + 1, 0, s, x, _, _, _, h => by omega
  | k + 1, k' + 1, s, x, hn, hn', hk, hk' => by
    have hs := skip_length x
    rw [scan, scan]
    cases hr : x.skip.rest with
    | nil => rfl
    | cons c t =>
      rw [hr] at hs
      simp only [List.length_cons] at hs
      simp only
      have e : topP g (gram g n) s x.skip = topP g (gram g n') s x.skip :=
        topP_congr (gram_len hg n) (gram_fuel hg n n' _ (by rw [hr, List.length_cons]; omega)
          (by rw [hr, List.length_cons]; omega))
      rw [← e]
      cases ht : topP g (gram g n) s x.skip with
      | mk s1 o =>
        cases o with
        | raised e => rfl
        | fail =>
          exact scan_fuel hg n n' k k' s1 ⟨c, t⟩ (by simp only; omega) (by simp only; omega) (by simp only; omega)
            (by simp only; omega)
        | next y =>
          have h1 := topP_len (gram_len hg n) ht
          rw [hr, List.length_cons] at h1
          exact scan_fuel hg n n' k k' s1 y (by omega) (by omega) (by omega) (by omega)

theorem noEmpty_of_ok {g : Gram} (hg : gramOk g = true) : NoEmpty g := by
  unfold gramOk at hg
  simp only [Bool.and_eq_true, List.all_eq_true] at hg
  refine ⟨fun h => ?_, fun h => ?_⟩
  · simp only [fundWords, baseTypes, List.mem_append] at h
    rcases h with (h | h) | (h | h) | h
    · revert h; decide
    · revert h; decide
    · revert h; decide
    · revert h
      unfold numTypes
      cases g.cfg.py312 <;> cases g.cfg.win32 <;> decide
    · exact absurd (hg.1 _ h).1 (by decide)
  · exact absurd (hg.2 _ h).1 (by decide)

end Pyclib
