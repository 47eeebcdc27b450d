import Verif.Spec.IndepText
import Verif.Proof.Independent
import Verif.Proof.GrammarNames2
import Verif.Props.FileFrame
/-
Proof that the reading of any text depends only on what it looks up: two runs of the parser side by side.
-/
namespace Pyclib

open Spec

section
variable {g : Gram} {S : Scope}

theorem Spec.CoversText.mono {x y : Pos} (h : CoversText g S x) (hs : Suf y x) : CoversText g S y where
  expr z e hz := h.expr z e (Suf.trans hz hs)
  minus := h.minus
  tag z u a n v hz := h.tag z u a n v (Suf.trans hz hs)
  anon z u a v hz := h.anon z u a v (Suf.trans hz hs)
  etag z a n v hz := h.etag z a n v (Suf.trans hz hs)
  eanon z a v hz := h.eanon z a v (Suf.trans hz hs)

theorem Spec.CoversText.here {x z : Pos} {e : Str} (h : CoversText g S x) (hx : x.prev = '=' ∨ x.prev = '[')
    (he : exprP g.cfg x = some (e, z)) : EvSame g S e := h.expr x e (Suf.refl x) (.inl ⟨hx, z, he⟩)

theorem lit_prev {c : Char} {x y : Pos} (h : lit c x = some y) : y.prev = c := by
  unfold lit at h
  split at h
  · cases h
  · split at h <;> cases h
    rfl

theorem Spec.SameOps.refl {U : Str → Prop} (s t : St) : SameOps U s s t t := ⟨[], by simp, rfl, rfl⟩
theorem Spec.SameOps.trans {U : Str → Prop} {s t s1 t1 s2 t2 : St} (h : SameOps U s s1 t t1) (h' : SameOps U s1 s2 t1 t2) :
    SameOps U s s2 t t2 := by
  obtain ⟨a, h1, rfl, rfl⟩ := h
  obtain ⟨b, h2, rfl, rfl⟩ := h'
  refine ⟨a ++ b, fun o ho => ?_, (runOps_append a b s).symm, (runOps_append a b t).symm⟩
  exact (List.mem_append.1 ho).elim (h1 o) (h2 o)
theorem Spec.SameOps.add {U : Str → Prop} (s t : St) (k : Kind) (n : Str) (v : DefVal) :
    SameOps U s (addDef s k n v) t (addDef t k n v) := ⟨[.add k n v], by simp [isEdit], rfl, rfl⟩
theorem Spec.SameOps.undef {U : Str → Prop} (s t : St) {n : Str} (h : U n) :
    SameOps U s (remDef s .macros n).1 t (remDef t .macros n).1 := ⟨[.rem .macros n], by simp [isEdit, h], rfl, rfl⟩
theorem Spec.SameOps.mono {U U' : Str → Prop} {s s' t t' : St} (h : SameOps U s s' t t') (hu : ∀ n, U n → U' n) :
    SameOps U' s s' t t' := by
  obtain ⟨a, h1, h2⟩ := h
  refine ⟨a, fun o ho => ?_, h2⟩
  have := h1 o ho
  cases o <;> simp only [isEdit] at this ⊢
  exact ⟨this.1, hu _ this.2⟩

theorem Spec.Alike.refl {s t : St} (h : SameOn S s t) : Alike S s t s t := ⟨h, SameOps.refl _ _⟩
theorem Spec.Alike.trans {s t s1 t1 s2 t2 : St} (h : Alike S s t s1 t1) (h' : Alike S s1 t1 s2 t2) : Alike S s t s2 t2 :=
  ⟨h'.agree, h.effect.trans h'.effect⟩
theorem Spec.Alike.add {s t : St} (h : SameOn S s t) (k : Kind) (n : Str) (v : DefVal) :
    Alike S s t (addDef s k n v) (addDef t k n v) := ⟨h.add _ _ _, .add _ _ _ _ _⟩

/-! ### Parse actions, whatever they lead to -/

/-- The members are processed in the same way. -/
def MAgree (g : Gram) (S : Scope) (ms : List MemberDecl) : Prop :=
  ∀ m ∈ ms, (∀ e, m.value = some e → EvSame g S e) ∧ ∀ d ∈ m.decls, DSame g S d

theorem membersOf_agree {ms : List MemberDecl} (h : MAgree g S ms) {a b : Dict Str DefVal} (hab : TAgree S a b) :
    membersOf (g.ev a) ms = membersOf (g.ev b) ms := by
  have hds : ∀ (tq : List Str) (tn : Str) (val : PVal) (bit : Option Str) (ds : List Decl), (∀ d ∈ ds, DSame g S d) →
      memberDecls (g.ev a) tq tn val bit ds = memberDecls (g.ev b) tq tn val bit ds := by
    intro tq tn val bit ds
    induction ds with
    | nil => intro _; rfl
    | cons d ds ih =>
      intro hd
      simp only [memberDecls, procType_same (hd d (by simp)) hab, ih fun x hx => hd x (by simp [hx])]
  induction ms with
  | nil => rfl
  | cons m ms ih =>
    obtain ⟨h1, h2⟩ := h m (by simp)
    have hm : memberOf (g.ev a) m = memberOf (g.ev b) m := by
      obtain ⟨tq, tn, ds, v, bit⟩ := m
      cases v with
      | none =>
        cases ds with
        | nil => rfl
        | cons d ds => exact hds _ _ _ _ _ h2
      | some e =>
        cases ds with
        | nil => rfl
        | cons d ds =>
          simp only [memberOf, h1 e rfl a b hab]
          exact hds _ _ _ _ _ h2
    simp only [membersOf, hm, ih fun x hx => h x (by simp [hx])]

theorem comp_name' {s t : St} (h : SameOn S s t) {w : Str} {k : Kind} (hk : k = .structs ∨ k = .unions ∨ k = .enums)
    {name : Option Str} (hn : ∀ n, name = some n → S.tags n)
    (ha : name = none → ∀ i, S.tags (c%"anon_" ++ w ++ natDigits i)) :
    ∃ n, S.tags n ∧ name.getD (anonName (c%"anon_" ++ w) (s.defs k)) = n ∧
      name.getD (anonName (c%"anon_" ++ w) (t.defs k)) = n := by
  cases name with
  | some n => exact ⟨n, hn n rfl, rfl, rfl⟩
  | none =>
    obtain ⟨e, i, e'⟩ := anonName_same (pre := c%"anon_" ++ w) (a := s.defs k) (b := t.defs k)
      fun i => h.has (ha rfl i) hk
    exact ⟨_, by rw [e']; exact ha rfl i, rfl, e.symm⟩

/-- Two results of the same kind, with tables that remain alike. -/
def Both {β : Type} (S : Scope) (s t : St) (p q : St × β) : Prop := p.2 = q.2 ∧ Alike S s t p.1 q.1

theorem both_procStruct {s t : St} (h : SameOn S s t) {u : Bool} {name : Option Str} {ms : List MemberDecl}
    (hn : ∀ n, name = some n → S.tags n)
    (ha : name = none → ∀ i, S.tags (c%"anon_" ++ compWord u ++ natDigits i))
    (hm : MAgree g S ms) (pk : Option Nat) :
    Both S s t (procStruct g.ev s u name ms pk) (procStruct g.ev t u name ms pk) := by
  obtain ⟨n, hp, e1, e2⟩ := comp_name' h (compKind_tag u) hn ha
  simp only [procStruct, e1, e2, evIn, ← h.has hp (compKind_tag u), ← membersOf_agree hm h.tbl]
  split
  · split
    · exact ⟨rfl, .refl h⟩
    · exact ⟨rfl, (Alike.add h _ _ _).trans (Alike.add (h.add _ _ _) _ _ _)⟩
  · exact ⟨rfl, .refl h⟩

theorem both_enumLoop {ms : List (Str × Option Str)} : ∀ {s t : St} {i : PVal} {d : Dict Str PVal},
    SameOn S s t → (∀ m ∈ ms, ∀ e, m.2 = some e → EvSame g S e) →
    Both S s t (enumLoop g.ev s i d ms) (enumLoop g.ev t i d ms) := by
  induction ms with
  | nil => intro s t i d h _; exact ⟨rfl, .refl h⟩
  | cons m ms ih =>
    intro s t i d h hm
    obtain ⟨n, v⟩ := m
    have hv := hm (n, v) (by simp)
    have go : ∀ j : PVal, Both S s t (match (motive := PVal → St × Except PyErr (Dict Str PVal)) j with
        | .int k => enumLoop g.ev (addDef s .values n (.value j)) (.int (k + 1)) (dset d n j) ms
        | .flt q => enumLoop g.ev (addDef s .values n (.value j)) (.flt (q + 1)) (dset d n j) ms
        | _ => (addDef s .values n (.value j), .error .typeError))
        (match (motive := PVal → St × Except PyErr (Dict Str PVal)) j with
        | .int k => enumLoop g.ev (addDef t .values n (.value j)) (.int (k + 1)) (dset d n j) ms
        | .flt q => enumLoop g.ev (addDef t .values n (.value j)) (.flt (q + 1)) (dset d n j) ms
        | _ => (addDef t .values n (.value j), .error .typeError)) := by
      intro j
      cases j with
      | int k =>
        obtain ⟨a, b⟩ := ih (i := .int (k + 1)) (d := dset d n (.int k)) (h.add .values n (.value (.int k))) (fun m hm' => hm m (by simp [hm']))
        exact ⟨a, (Alike.add h _ _ _).trans b⟩
      | flt q =>
        obtain ⟨a, b⟩ := ih (i := .flt (q + 1)) (d := dset d n (.flt q)) (h.add .values n (.value (.flt q))) (fun m hm' => hm m (by simp [hm']))
        exact ⟨a, (Alike.add h _ _ _).trans b⟩
      | none => exact ⟨rfl, .add h _ _ _⟩
      | str t => exact ⟨rfl, .add h _ _ _⟩
      | list l => exact ⟨rfl, .add h _ _ _⟩
      | other => exact ⟨rfl, .add h _ _ _⟩
    cases v with
    | none => simp only [enumLoop]; exact go _
    | some x =>
      simp only [enumLoop, evIn, ← hv x rfl _ _ h.tbl]
      exact go _

theorem both_procEnum {s t : St} (h : SameOn S s t) {name : Option Str} {ms : List (Str × Option Str)}
    (hn : ∀ n, name = some n → S.tags n)
    (ha : name = none → ∀ i, S.tags (c%"anon_" ++ c%"enum" ++ natDigits i))
    (hm : ∀ m ∈ ms, ∀ e, m.2 = some e → EvSame g S e) :
    Both S s t (procEnum g.ev s name ms) (procEnum g.ev t name ms) := by
  obtain ⟨n, hp, e1, e2⟩ := comp_name' h (k := .enums) (.inr (.inr rfl)) hn ha
  have e1' : name.getD (anonName c%"anon_enum" (s.defs .enums)) = n := e1
  have e2' : name.getD (anonName c%"anon_enum" (t.defs .enums)) = n := e2
  simp only [procEnum, e1', e2', ← h.has hp (k := .enums) (.inr (.inr rfl))]
  split
  · exact ⟨rfl, .refl h⟩
  · obtain ⟨a, b⟩ := both_enumLoop (i := .int 0) (d := []) h hm
    generalize enumLoop g.ev s (.int 0) [] ms = p at *
    generalize enumLoop g.ev t (.int 0) [] ms = q at *
    obtain ⟨p1, p2⟩ := p
    obtain ⟨q1, q2⟩ := q
    simp only at a b
    subst a
    cases p2 with
    | error e => exact ⟨rfl, b⟩
    | ok en => exact ⟨rfl, b.trans ((Alike.add b.agree _ _ _).trans (Alike.add (b.agree.add _ _ _) _ _ _))⟩

theorem both_varLoop {tq : List Str} {tn : Str} {val : PVal} {ds : List Decl} : ∀ {s t : St}, SameOn S s t →
    (∀ d ∈ ds, DSame g S d) → Both S s t (varLoop g.ev tq tn val s ds) (varLoop g.ev tq tn val t ds) := by
  induction ds with
  | nil => intro s t h _; exact ⟨rfl, .refl h⟩
  | cons d ds ih =>
    intro s t h hd
    have ih' := fun {s t} (h : SameOn S s t) => ih h fun x hx => hd x (by simp [hx])
    simp only [varLoop, evIn, ← procType_same (hd d (by simp)) h.tbl]
    split
    · exact ⟨rfl, .refl h⟩
    · rename_i n ty hp
      split
      · split
        · exact ⟨rfl, .refl h⟩
        · rename_i f _
          obtain ⟨a, b⟩ := ih' (h.add .functions (nameOr n) (.func f))
          exact ⟨a, (Alike.add h _ _ _).trans b⟩
      · obtain ⟨a, b⟩ := ih' ((h.add .variables (nameOr n) (.var val ty)).add .values (nameOr n) (.value val))
        exact ⟨a, ((Alike.add h _ _ _).trans (Alike.add (h.add _ _ _) _ _ _)).trans b⟩

theorem both_typedefLoop {tq : List Str} {tn : Str} {ds : List Decl} : ∀ {s t : St}, SameOn S s t →
    (∀ d ∈ ds, DSame g S d) → Both S s t (typedefLoop g.ev tq tn s ds) (typedefLoop g.ev tq tn t ds) := by
  induction ds with
  | nil => intro s t h _; exact ⟨rfl, .refl h⟩
  | cons d ds ih =>
    intro s t h hd
    simp only [typedefLoop, evIn, ← procType_same (hd d (by simp)) h.tbl]
    split
    · exact ⟨rfl, .refl h⟩
    · rename_i n ty hp
      obtain ⟨a, b⟩ := ih (h.add .types (nameOr n) (.type ty)) (fun x hx => hd x (by simp [hx]))
      exact ⟨a, (Alike.add h _ _ _).trans b⟩

theorem both_procFunction {tq : List Str} {tn : Str} {d : Decl} {s t : St} (h : SameOn S s t) (hd : DSame g S d) :
    Alike S s t (procFunction g.ev s tq tn d) (procFunction g.ev t tq tn d) := by
  simp only [procFunction, evIn, ← procType_same hd h.tbl]
  split
  · exact .refl h
  · split
    · split
      · exact .refl h
      · exact .add h _ _ _
    · exact .refl h

/-- The initial value. -/
def ISame (g : Gram) (S : Scope) (i : Init) : Prop := ∀ a b, TAgree S a b → initVal (g.ev a) i = initVal (g.ev b) i

theorem isame_values {xs : List Str} (h : ∀ e ∈ xs, EvSame g S e) : ISame g S (.values xs) := by
  intro a b hab
  have he := fun e hx => h e hx a b hab
  have h5 : xs.map (fun e => (g.ev a e).dim) = xs.map (fun e => (g.ev b e).dim) :=
    List.map_congr_left fun e hx => by rw [he e hx]
  have h6 : xs.any (fun e => decide (g.ev a e = .none)) = xs.any (fun e => decide (g.ev b e = .none)) := by
    clear h5 h
    induction xs with
    | nil => rfl
    | cons x xs ih => simp only [List.any_cons, he x (by simp), ih fun e hx => he e (by simp [hx])]
  simp only [initVal, h5, h6]

/-! ### Texts of expressions -/

theorem isame_initP {x : Pos} (hc : CoversText g S x) : ISame g S (initP g.cfg x).1 := by
  unfold initP
  split
  · intro a b _; rfl
  · rename_i y e1
    have hy := hc.mono (suf_lit e1)
    split
    · rename_i e z e2
      exact fun a b hab => hy.here (.inl (lit_prev e1)) e2 a b hab
    · split
      · intro a b _; rfl
      · rename_i es z e2
        obtain ⟨u, h1, h2⟩ := Option.bind_eq_some_iff.1 e2
        split
        · intro a b _; rfl
        · exact isame_values fun e he => hy.expr y e (Suf.refl y) (.inr ⟨lit_prev e1, u, es, z, h1, h2, he⟩)

theorem value_initP {x : Pos} (hc : CoversText g S x) (e : Str) (h : (initP g.cfg x).1 = .value e) : EvSame g S e := by
  have := isame_initP hc
  rw [h] at this
  exact this

theorem exprD_same {y : Pos} (hm : EvSame g S c%"-1") (h : ∀ e z, exprP g.cfg y = some (e, z) → EvSame g S e) :
    EvSame g S ((exprP g.cfg y).getD (c%"-1", y)).1 := by
  generalize exprP g.cfg y = o at *
  cases o with
  | none => exact hm
  | some q => exact h q.1 q.2 rfl

theorem arrayLoop_expr (n : Nat) : ∀ {x : Pos}, CoversText g S x → ∀ e ∈ (arrayLoop g.cfg n x).1, EvSame g S e := by
  induction n with
  | zero => exact fun _ _ he => absurd he List.not_mem_nil
  | succ n ih =>
    intro x hc e
    rw [arrayLoop_succ]
    cases e1 : lit '[' x with
    | none => exact fun he => absurd he List.not_mem_nil
    | some y =>
      cases e2 : delim ']' ((exprP g.cfg y).getD (c%"-1", y)).2 with
      | none => simp only [e2]; exact fun he => absurd he List.not_mem_nil
      | some z =>
        simp only [e2, List.mem_cons]
        intro he
        have hy := hc.mono (suf_lit e1)
        rcases he with he | he
        · rw [he]
          exact exprD_same hc.minus fun e z => hy.here (z := z) (e := e) (.inr (lit_prev e1))
        · exact ih (hy.mono (Suf.trans (suf_delim e2) (suf_exprD (cfg := g.cfg) c%"-1" y))) e he

theorem commaLoop_enum : ∀ (n : Nat) {x : Pos}, CoversText g S x →
    ∀ m ∈ (commaLoop (enumeratorP g.cfg) n x).1, ∀ e, m.2 = some e → EvSame g S e
  | 0, x, _, e, he => by simp [commaLoop] at he
  | n + 1, x, hc, m, he => by
    simp only [commaLoop] at he
    split at he
    · simp at he
    · rename_i y e1
      have hy := hc.mono (suf_lit e1)
      split at he
      · simp at he
      · rename_i a z e2
        rcases List.mem_cons.1 he with rfl | he
        · exact (enumerator_expr hy e2).1
        · exact commaLoop_enum n (hy.mono (enumerator_expr hy e2).2) m he
where
  enumerator_expr {x z : Pos} {a : Str × Option Str} (hc : CoversText g S x) (h : enumeratorP g.cfg x = some (a, z)) :
      (∀ e, a.2 = some e → EvSame g S e) ∧ Suf z x := by
    unfold enumeratorP at h
    split at h
    · cases h
    · rename_i i y e1
      have hs := (suf_identP e1).1
      split at h
      · cases h
        exact ⟨fun e he => (by cases he), hs⟩
      · rename_i e z' e2
        cases h
        obtain ⟨u, h1, h2⟩ := Option.bind_eq_some_iff.1 e2
        refine ⟨fun e' he => ?_, ((suf_exprP h2).trans (suf_lit h1)).trans hs⟩
        cases he
        exact ((hc.mono hs).mono (suf_lit h1)).here (.inl (lit_prev h1)) h2

theorem enumBodyP_expr {x z : Pos} {ms : List (Str × Option Str)} (hc : CoversText g S x)
    (h : enumBodyP g.cfg x = some (ms, z)) : ∀ m ∈ ms, ∀ e, m.2 = some e → EvSame g S e := by
  unfold enumBodyP at h
  split at h
  · cases h
  · rename_i ms' y e1
    obtain ⟨u, h1, h2⟩ := Option.map_eq_some_iff.1 h
    cases h2
    obtain ⟨v, h3, h4⟩ := Option.bind_eq_some_iff.1 e1
    have hv := hc.mono (suf_delim h3)
    unfold delimited at h4
    split at h4
    · cases h4
    · rename_i a w e2
      simp only [Option.some.injEq, Prod.mk.injEq] at h4
      obtain ⟨rfl, rfl⟩ := h4
      obtain ⟨k1, k2⟩ := commaLoop_enum.enumerator_expr hv e2
      intro m hm
      rcases List.mem_cons.1 hm with rfl | hm
      · exact k1
      · exact commaLoop_enum _ (hv.mono k2) m hm

/-! ### Parsers with side effects -/

/-- Two results side by side: the same result, with the property `Q`, and tables that remain alike. -/
def Twin {α : Type} (S : Scope) (Q : α → Prop) (s t : St) (p q : St × Option (α × Pos)) : Prop :=
  Both S s t p q ∧ ∀ a y, p.2 = some (a, y) → Q a

/-- All results of a parser. -/
def SPSim {α : Type} (g : Gram) (S : Scope) (Q : α → Prop) (p : SP α) : Prop :=
  ∀ s t x, CoversText g S x → SameOn S s t → Twin S Q s t (p s x) (p t x)

theorem Both.parts {β : Type} {s t : St} {p q : St × β} (h : Both S s t p q) :
    ∃ s1 t1 o, p = (s1, o) ∧ q = (t1, o) ∧ Alike S s t s1 t1 := by
  obtain ⟨h1, h2⟩ := h
  exact ⟨p.1, q.1, p.2, rfl, by rw [h1], h2⟩

theorem Twin.parts {α : Type} {Q : α → Prop} {s t : St} {p q : St × Option (α × Pos)} (h : Twin S Q s t p q) :
    ∃ s1 t1 o, p = (s1, o) ∧ q = (t1, o) ∧ Alike S s t s1 t1 ∧ ∀ a y, o = some (a, y) → Q a := by
  obtain ⟨⟨h1, h2⟩, h3⟩ := h
  exact ⟨p.1, q.1, p.2, rfl, by rw [h1], h2, h3⟩

theorem Twin.fail {α : Type} {Q : α → Prop} {s t s1 t1 : St} (h : Alike S s t s1 t1) : Twin S Q s t (s1, none) (t1, none) :=
  ⟨⟨rfl, h⟩, fun _ _ e => by cases e⟩
theorem Twin.ok {α : Type} {Q : α → Prop} {s t s1 t1 : St} (h : Alike S s t s1 t1) {a : α} {y : Pos} (hq : Q a) :
    Twin S Q s t (s1, some (a, y)) (t1, some (a, y)) :=
  ⟨⟨rfl, h⟩, fun _ _ e => by cases e; exact hq⟩
theorem Twin.same {α : Type} {Q : α → Prop} {s t s1 t1 : St} (h : Alike S s t s1 t1) {o : Option (α × Pos)}
    (hq : ∀ a y, o = some (a, y) → Q a) : Twin S Q s t (s1, o) (t1, o) := ⟨⟨rfl, h⟩, hq⟩
theorem Twin.after {α : Type} {Q : α → Prop} {s t s1 t1 : St} (h : Alike S s t s1 t1) {p q : St × Option (α × Pos)}
    (h' : Twin S Q s1 t1 p q) : Twin S Q s t p q := ⟨⟨h'.1.1, h.trans h'.1.2⟩, h'.2⟩

theorem at_of {α : Type} {Q : Pos → α → Prop} {p : SP α} (h : SPIn Q p) {s s1 : St} {x y : Pos} {a : α}
    (e : p s x = (s1, some (a, y))) : Suf y x := by
  have := (h s x).2 a y (by rw [e])
  exact this.1

/-- The recursive elements. -/
structure RecSim (g : Gram) (S : Scope) (r : Rec) : Prop where
  ats : RecIn r
  type : SPSim g S (fun _ => True) r.type
  decl : SPSim g S (DSame g S) r.decl
  abs : SPSim g S (DSame g S) r.abs

theorem sim_commaLoop {α : Type} {Q : α → Prop} {P : Pos → α → Prop} {p : SP α} (hi : SPIn P p) (hp : SPSim g S Q p) :
    ∀ (n : Nat) (s t : St) (x : Pos), CoversText g S x → SameOn S s t →
      Both S s t (commaLoopS p n s x) (commaLoopS p n t x) ∧ ∀ a ∈ (commaLoopS p n s x).2.1, Q a
  | 0, s, t, x, _, h => ⟨⟨rfl, .refl h⟩, by simp [commaLoopS]⟩
  | n + 1, s, t, x, hc, h => by
    simp only [commaLoopS]
    split
    · exact ⟨⟨rfl, .refl h⟩, by simp⟩
    · rename_i y e0
      have hy := hc.mono (suf_lit e0)
      obtain ⟨s1, t1, o, e1, e2, h1, h2⟩ := (hp s t y hy h).parts
      rw [e1, e2]
      cases o with
      | none => exact ⟨⟨rfl, h1⟩, by simp⟩
      | some q =>
        obtain ⟨a, z⟩ := q
        obtain ⟨k1, k2⟩ := sim_commaLoop hi hp n s1 t1 z (hy.mono (at_of hi e1)) h1.agree
        obtain ⟨s2, t2, o, e3, e4, h3⟩ := k1.parts
        rw [e3] at k2
        simp only [e3, e4]
        refine ⟨⟨rfl, h1.trans h3⟩, ?_⟩
        intro b hb
        rcases List.mem_cons.1 hb with rfl | hb
        · exact h2 _ _ rfl
        · exact k2 b hb

theorem sim_delimited {α : Type} {Q : α → Prop} {P : Pos → α → Prop} {p : SP α} (hi : SPIn P p) (hp : SPSim g S Q p) :
    SPSim g S (fun l => ∀ a ∈ l, Q a) (delimitedS p) := by
  intro s t x hc h
  simp only [delimitedS]
  obtain ⟨s1, t1, o, e1, e2, h1, h2⟩ := (hp s t x hc h).parts
  rw [e1, e2]
  cases o with
  | none => exact .fail h1
  | some q =>
    obtain ⟨a, z⟩ := q
    obtain ⟨k1, k2⟩ := sim_commaLoop hi hp z.rest.length s1 t1 z (hc.mono (at_of hi e1)) h1.agree
    obtain ⟨s2, t2, o, e3, e4, h3⟩ := k1.parts
    rw [e3] at k2
    simp only [e3, e4]
    refine .ok (h1.trans h3) ?_
    intro b hb
    rcases List.mem_cons.1 hb with rfl | hb
    · exact h2 _ _ rfl
    · exact k2 b hb

theorem getD_all {α : Type} {Q : α → Prop} {o : Option (List α × Pos)} {y : Pos}
    (h : ∀ l z, o = some (l, z) → ∀ a ∈ l, Q a) : ∀ a ∈ (o.getD ([], y)).1, Q a := by
  cases o with
  | none => simp
  | some p => exact h p.1 p.2 rfl

theorem getD_suf {α : Type} {P : Pos → List α → Prop} {p : SP (List α)} (h : SPIn P p) {s s1 : St} {y : Pos} {o : Option (List α × Pos)}
    (e : p s y = (s1, o)) : Suf (o.getD ([], y)).2 y := by
  cases o with
  | none => exact Suf.refl y
  | some q => exact at_of (a := q.1) (y := q.2) h e

/-- Variables and members. -/
def VSame (g : Gram) (S : Scope) (v : VarDecl) : Prop :=
  (∀ d ∈ v.decls, DSame g S d) ∧ ISame g S v.ini

theorem in_decls {r : Rec} (hr : RecIn r) : SPIn (AllAt DeclAt) (delimitedS r.decl) := in_delimited keeps_decl hr.decl

theorem sim_varP {r : Rec} (hr : RecSim g S r) : SPSim g S (VSame g S) (varP g r) := by
  intro s t x hc h
  simp only [varP]
  have h0 := hc.mono (suf_storageP x)
  obtain ⟨s1, t1, o, e1, e2, h1, h2⟩ := (hr.type s t _ h0 h).parts
  rw [e1, e2]
  cases o with
  | none => exact .fail h1
  | some q =>
    obtain ⟨⟨tq, tn⟩, y⟩ := q
    have hy := h0.mono (at_of hr.ats.type e1)
    obtain ⟨s2, t2, o, e3, e4, h3, h4⟩ := (sim_delimited hr.ats.decl hr.decl s1 t1 y hy h1.agree).parts
    simp only [e3, e4]
    have hz := hy.mono (getD_suf (in_decls hr.ats) e3)
    split
    · exact .fail (h1.trans h3)
    · exact .ok (h1.trans h3) ⟨getD_all h4, isame_initP hz⟩

theorem sim_bitP {r : Rec} (hr : RecSim g S r) : SPSim g S (fun m => MAgree g S [m]) (bitP r) := by
  intro s t x hc h
  simp only [bitP, optDecls]
  obtain ⟨s1, t1, o, e1, e2, h1, h2⟩ := (hr.type s t _ hc h).parts
  rw [e1, e2]
  cases o with
  | none => exact .fail h1
  | some q =>
    obtain ⟨⟨tq, tn⟩, y⟩ := q
    have hy := hc.mono (at_of hr.ats.type e1)
    obtain ⟨s2, t2, o, e3, e4, h3, h4⟩ := (sim_delimited hr.ats.decl hr.decl s1 t1 y hy h1.agree).parts
    simp only [e3, e4]
    split
    · exact .fail (h1.trans h3)
    · split
      · exact .fail (h1.trans h3)
      · refine .ok (h1.trans h3) fun m hm => ?_
        rw [List.mem_singleton.1 hm]
        exact ⟨fun e he => (by cases he), getD_all h4⟩

theorem sim_methodP {r : Rec} (hr : RecSim g S r) : SPSim g S (fun _ => True) (methodP r) := by
  intro s t x hc h
  simp only [methodP]
  obtain ⟨s1, t1, o, e1, e2, h1, h2⟩ := (hr.decl s t _ hc h).parts
  rw [e1, e2]
  cases o with
  | none => exact .fail h1
  | some q => exact .same h1 fun _ _ _ => trivial

theorem sim_typedMethodP {r : Rec} (hr : RecSim g S r) : SPSim g S (fun _ => True) (typedMethodP r) := by
  intro s t x hc h
  simp only [typedMethodP]
  obtain ⟨s1, t1, o, e1, e2, h1, h2⟩ := (hr.type s t _ hc h).parts
  rw [e1, e2]
  cases o with
  | none => exact .fail h1
  | some q => exact .after h1 (sim_methodP hr _ _ _ (hc.mono (at_of hr.ats.type (a := q.1) (y := q.2) e1)) h1.agree)

theorem member_agree {v : VarDecl} (h : VSame g S v) : MAgree g S [v.member] := by
  intro m hm
  rw [List.mem_singleton.1 hm]
  obtain ⟨tq, tn, ds, i⟩ := v
  refine ⟨fun e he => ?_, h.1⟩
  cases i with
  | none => cases he
  | value e' =>
    cases he
    exact h.2
  | values es => cases he

theorem sim_memberP {r : Rec} (hr : RecSim g S r) : SPSim g S (fun m => MAgree g S m.toList) (memberP g r) := by
  intro s t x hc h
  simp only [memberP]
  obtain ⟨s1, t1, o, e1, e2, h1, h2⟩ := (sim_varP hr s t _ hc h).parts
  rw [e1, e2]
  cases o with
  | some q => exact .ok h1 (member_agree (h2 _ _ rfl))
  | none =>
    obtain ⟨s2, t2, o, e3, e4, h3, h4⟩ := (sim_bitP hr s1 t1 x hc h1.agree).parts
    simp only [e3, e4]
    have k1 := h1.trans h3
    cases o with
    | some q => exact .ok k1 (h4 _ _ rfl)
    | none =>
      obtain ⟨s3, t3, o, e5, e6, h5, h6⟩ := (sim_typedMethodP hr s2 t2 x hc h3.agree).parts
      simp only [e5, e6]
      have k2 := k1.trans h5
      cases o with
      | some q => exact .ok k2 (by simp [MAgree])
      | none =>
        obtain ⟨s4, t4, o, e7, e8, h7, h8⟩ := (sim_methodP hr s3 t3 x hc h5.agree).parts
        simp only [e7, e8]
        cases o with
        | some q => exact .ok (k2.trans h7) (by simp [MAgree])
        | none => exact .fail (k2.trans h7)

theorem MAgree.append {a b : List MemberDecl} (h : MAgree g S a) (h' : MAgree g S b) : MAgree g S (a ++ b) := by
  intro m hm
  rcases List.mem_append.1 hm with hm | hm
  · exact h m hm
  · exact h' m hm

theorem sim_memberLoop {r : Rec} (hr : RecSim g S r) : ∀ (n : Nat) (s t : St) (x : Pos), CoversText g S x → SameOn S s t →
    Both S s t (memberLoop g r n s x) (memberLoop g r n t x) ∧ MAgree g S (memberLoop g r n s x).2.1
  | 0, s, t, x, _, h => ⟨⟨rfl, .refl h⟩, by simp [memberLoop, MAgree]⟩
  | n + 1, s, t, x, hc, h => by
    simp only [memberLoop]
    obtain ⟨s1, t1, o, e1, e2, h1, h2⟩ := (sim_memberP hr s t _ hc h).parts
    rw [e1, e2]
    cases o with
    | none => exact ⟨⟨rfl, h1⟩, by simp [MAgree]⟩
    | some q =>
      obtain ⟨m, y⟩ := q
      obtain ⟨k1, k2⟩ := sim_memberLoop hr n s1 t1 y (hc.mono (at_of (in_memberP hr.ats) e1)) h1.agree
      obtain ⟨s2, t2, o, e3, e4, h3⟩ := k1.parts
      rw [e3] at k2
      simp only [e3, e4]
      exact ⟨⟨rfl, h1.trans h3⟩, (h2 _ _ rfl).append k2⟩

theorem sim_bodyP {r : Rec} (hr : RecSim g S r) : SPSim g S (MAgree g S) (bodyP g r) := by
  intro s t x hc h
  simp only [bodyP]
  split
  · exact .fail (.refl h)
  · rename_i y e0
    have hy := hc.mono (suf_delim e0)
    obtain ⟨s1, t1, o, e1, e2, h1, h2⟩ := (sim_memberP hr s t _ hy h).parts
    rw [e1, e2]
    cases o with
    | none => exact .fail h1
    | some q =>
      obtain ⟨m, z⟩ := q
      obtain ⟨k1, k2⟩ := sim_memberLoop hr (z.rest.length + 1) s1 t1 z (hy.mono (at_of (in_memberP hr.ats) e1)) h1.agree
      obtain ⟨s2, t2, o, e3, e4, h3⟩ := k1.parts
      rw [e3] at k2
      simp only [e3, e4]
      refine .same (h1.trans h3) fun a v ha => ?_
      obtain ⟨w, _, h5⟩ := Option.map_eq_some_iff.1 ha
      cases h5
      exact (h2 _ _ rfl).append k2

theorem bodyP_delim {r : Rec} {s s1 : St} {x y : Pos} {ms : List MemberDecl} (h : bodyP g r s x = (s1, some (ms, y))) :
    ∃ v, delim '{' x = some v := by
  unfold bodyP at h
  split at h
  · cases h
  · exact ⟨_, by assumption⟩

theorem optIdent_some {cfg : Cfg} {x : Pos} {n : Str} (h : (optIdent cfg x).1 = some n) : ∃ v, identP cfg x = some (n, v) := by
  unfold optIdent at h
  split at h
  · rename_i i y e; cases h; exact ⟨y, e⟩
  · cases h
theorem sim_finish {s t : St} (h : SameOn S s t) {u : Bool} {name : Option Str} {ms : List MemberDecl}
    (hn : ∀ n, name = some n → S.tags n)
    (ha : name = none → ∀ i, S.tags (c%"anon_" ++ compWord u ++ natDigits i)) (hm : MAgree g S ms) (x v : Pos) :
    Twin S (fun _ => True) s t (structP.finish g s u name ms x v) (structP.finish g t u name ms x v) := by
  unfold structP.finish
  obtain ⟨s2, t2, o, e3, e4, h3⟩ := (both_procStruct h hn ha hm (g.pack x.skip.rest.length)).parts
  simp only [e3, e4]
  exact .same h3 fun _ _ _ => trivial

theorem sim_structP {r : Rec} (hr : RecSim g S r) : SPSim g S (fun _ => True) (structP g r) := by
  intro s t x hc h
  simp only [structP]
  split
  · exact .fail (.refl h)
  · rename_i u y e0
    have hy := hc.mono (suf_structKw e0).1
    have hz := hy.mono (suf_optIdent (cfg := g.cfg) y).1
    obtain ⟨s1, t1, o, e1, e2, h1, h2⟩ := (sim_bodyP hr s t _ hz h).parts
    rw [e1, e2]
    cases o with
    | some q =>
      obtain ⟨ms, v⟩ := q
      obtain ⟨w, hw⟩ := bodyP_delim e1
      refine .after h1 (sim_finish h1.agree (fun n hn => ?_) (fun hn i => ?_) (h2 _ _ rfl) _ _)
      · obtain ⟨v', hv⟩ := optIdent_some hn
        exact hc.tag x u y n v' (Suf.refl x) e0 hv
      · rw [optIdent_none hn] at hw
        exact hc.anon x u y w (Suf.refl x) e0 hw i
    | none =>
      cases e3 : identP g.cfg y with
      | none => exact .fail h1
      | some q =>
        refine .after h1 (sim_finish h1.agree (fun n hn => ?_) (fun hn i => by cases hn) (by simp [MAgree]) _ _)
        cases hn
        exact hc.tag x u y _ q.2 (Suf.refl x) e0 e3

theorem sim_finishE {s t : St} (h : SameOn S s t) {name : Option Str} {ms : List (Str × Option Str)}
    (hn : ∀ n, name = some n → S.tags n)
    (ha : name = none → ∀ i, S.tags (c%"anon_" ++ c%"enum" ++ natDigits i)) (hm : ∀ m ∈ ms, ∀ e, m.2 = some e → EvSame g S e) (x v : Pos) :
    Twin S (fun _ => True) s t (enumP.finish g s name ms x v) (enumP.finish g t name ms x v) := by
  unfold enumP.finish
  obtain ⟨s2, t2, o, e3, e4, h3⟩ := (both_procEnum h hn ha hm).parts
  simp only [e3, e4]
  exact .same h3 fun _ _ _ => trivial

theorem enumBodyP_delim {cfg : Cfg} {x : Pos} {p : List (Str × Option Str) × Pos} (h : enumBodyP cfg x = some p) :
    ∃ v, delim '{' x = some v := by
  unfold enumBodyP at h
  split at h
  · cases h
  · rename_i e
    obtain ⟨v, h3, h4⟩ := Option.bind_eq_some_iff.1 e
    exact ⟨v, h3⟩

theorem sim_enumP : SPSim g S (fun _ => True) (enumP g) := by
  intro s t x hc h
  simp only [enumP]
  split
  · exact .fail (.refl h)
  · rename_i y e0
    have hy := hc.mono (suf_keyword (by decide) e0).1
    have hz := hy.mono (suf_optIdent (cfg := g.cfg) y).1
    split
    · rename_i ms v e1
      obtain ⟨w, hw⟩ := enumBodyP_delim e1
      refine sim_finishE h (fun n hn => ?_) (fun hn i => ?_) (enumBodyP_expr hz e1) _ _
      · obtain ⟨v', hv⟩ := optIdent_some hn
        exact hc.etag x y n v' (Suf.refl x) e0 hv
      · rw [optIdent_none hn] at hw
        exact hc.eanon x y w (Suf.refl x) e0 hw i
    · split
      · exact .fail (.refl h)
      · rename_i i v e3
        refine sim_finishE h (fun n hn => ?_) (fun hn i => by cases hn) (by simp) _ _
        cases hn
        exact hc.etag x y _ v (Suf.refl x) e0 e3

theorem sim_typeNameP {r : Rec} (hr : RecSim g S r) : SPSim g S (fun _ => True) (typeNameP g r) := by
  intro s t x hc h
  simp only [typeNameP]
  split
  · exact .same (.refl h) fun _ _ _ => trivial
  · split
    · exact .same (.refl h) fun _ _ _ => trivial
    · obtain ⟨s1, t1, o, e1, e2, h1, h2⟩ := (sim_structP hr s t _ hc h).parts
      rw [e1, e2]
      cases o with
      | some q => exact .same h1 fun _ _ _ => trivial
      | none => exact .after h1 (sim_enumP _ _ _ hc h1.agree)

theorem sim_typeSpecP {r : Rec} (hr : RecSim g S r) : SPSim g S (fun _ => True) (typeSpecP g r) := by
  intro s t x hc h
  simp only [typeSpecP]
  obtain ⟨s1, t1, o, e1, e2, h1, h2⟩ := (sim_typeNameP hr s t _ (hc.mono (suf_qualP (cfg := g.cfg) x)) h).parts
  rw [e1, e2]
  cases o with
  | none => exact .fail h1
  | some q => exact .ok h1 trivial

/-- The parameters are processed in the same way. -/
def ASame (g : Gram) (S : Scope) (as : ArgList) : Prop := ∀ a b, TAgree S a b → procArgs (g.ev a) as = procArgs (g.ev b) as

theorem sim_paramP {r : Rec} (hr : RecSim g S r) {dp : SP Decl} (hd : SPSim g S (DSame g S) dp) :
    SPSim g S (fun p => DSame g S p.d) (paramP g r dp) := by
  intro s t x hc h
  simp only [paramP]
  obtain ⟨s1, t1, o, e1, e2, h1, h2⟩ := (hr.type s t _ hc h).parts
  rw [e1, e2]
  cases o with
  | none => exact .fail h1
  | some q =>
    obtain ⟨⟨tq, tn⟩, y⟩ := q
    obtain ⟨s2, t2, o, e3, e4, h3, h4⟩ := (hd s1 t1 y (hc.mono (at_of hr.ats.type e1)) h1.agree).parts
    simp only [e3, e4]
    cases o with
    | none => exact .fail (h1.trans h3)
    | some q => exact .ok (h1.trans h3) (h4 _ _ rfl)

theorem asame_toArgs : ∀ (ps : List ParamTok), (∀ p ∈ ps, DSame g S p.d) → ASame g S (toArgs ps)
  | [], _ => fun _ _ _ => by simp only [toArgs, procArgs]
  | p :: ps, h => fun a b hab => by
    simp only [toArgs, procArgs, h p (by simp) a b hab, asame_toArgs ps (fun q hq => h q (by simp [hq])) a b hab]

theorem asame_nil : ASame g S .nil := fun _ _ _ => by simp only [procArgs]

theorem sim_argsP {r : Rec} (hr : RecSim g S r) {dp : SP Decl} (hi : SPIn AbsAt dp) (hd : SPSim g S (DSame g S) dp) (s t : St) (x : Pos)
    (hc : CoversText g S x) (h : SameOn S s t) :
    Both S s t (argsP g r dp s x) (argsP g r dp t x) ∧ ASame g S (argsP g r dp s x).2.1.2 := by
  simp only [argsP]
  split
  · exact ⟨⟨rfl, .refl h⟩, asame_nil⟩
  · rename_i y e0
    have hy := hc.mono (suf_lit e0)
    obtain ⟨s1, t1, o, e1, e2, h1, h2⟩ := (sim_delimited (in_paramP (g := g) hr.ats hi) (sim_paramP hr hd) s t _ hy h).parts
    simp only [e1, e2]
    split
    · exact ⟨⟨rfl, h1⟩, asame_nil⟩
    · exact ⟨⟨rfl, h1⟩, asame_toArgs _ (getD_all h2)⟩

theorem sim_anyDecl {r : Rec} (hr : RecSim g S r) : SPSim g S (DSame g S) (anyDecl r) := by
  intro s t x hc h
  simp only [anyDecl]
  obtain ⟨s1, t1, o, e1, e2, h1, h2⟩ := (hr.decl s t _ hc h).parts
  rw [e1, e2]
  cases o with
  | some q => exact .same h1 h2
  | none => exact .after h1 (hr.abs _ _ _ hc h1.agree)

/-- The core of a declarator is processed in the same way. -/
def CSame (g : Gram) (S : Scope) (c : Bool × Core) : Prop :=
  ∀ a b, TAgree S a b → procCore (g.ev a) c.1 c.2 = procCore (g.ev b) c.1 c.2

theorem csame_name (ref : Bool) (n : Str) : CSame g S (ref, .name n) := by
  intro a b _
  funext toks qs
  simp only [procCore]

theorem csame_refName {x y : Pos} {c : Bool × Core} (h : declCoreP.refName g x = some (c, y)) : CSame g S c := by
  unfold declCoreP.refName at h
  split at h
  · obtain ⟨p, _, h2⟩ := Option.map_eq_some_iff.1 h
    cases h2
    exact csame_name _ _
  · obtain ⟨p, _, h2⟩ := Option.map_eq_some_iff.1 h
    cases h2
    exact csame_name _ _

theorem sim_declCoreP {r : Rec} (hr : RecSim g S r) : SPSim g S (CSame g S) (declCoreP g r) := by
  intro s t x hc h
  simp only [declCoreP]
  split
  · rename_i p e
    exact .same (.refl h) fun a y ha => by cases ha; exact csame_refName e
  · split
    · exact .fail (.refl h)
    · rename_i y e0
      obtain ⟨s1, t1, o, e1, e2, h1, h2⟩ := (hr.decl s t _ (hc.mono (suf_lit e0)) h).parts
      rw [e1, e2]
      cases o with
      | none => exact .fail h1
      | some q =>
        refine .same h1 fun a v ha => ?_
        obtain ⟨w, _, h5⟩ := Option.map_eq_some_iff.1 ha
        cases h5
        intro a b hab
        funext toks qs
        simp only [procCore, h2 q.1 q.2 rfl a b hab]

theorem dsame_mk {q : List Str} {c : Option Str} {p : List (List Str)} {ref : Bool} {core : Core} {h : Bool}
    {as : ArgList} {ar : List Str} (h1 : CSame g S (ref, core)) (h2 : ASame g S as) (h3 : ∀ e ∈ ar, EvSame g S e) :
    DSame g S (.mk q c p ref core h as ar) := by
  intro x y hab
  have k1 := h1 x y hab
  simp only at k1
  simp only [procDecl, h2 x y hab, levelToks_same h3 hab, k1]

theorem sim_declP {r : Rec} (hr : RecSim g S r) : SPSim g S (DSame g S) (declP g r) := by
  intro s t x hc h
  simp only [declP]
  have h1 := suf_qualP (cfg := g.cfg) x
  have h2 := (suf_convP (qualP g.cfg x).2).1
  have h4 := hc.mono (((suf_ptrLoop (cfg := g.cfg) (convP (qualP g.cfg x).2).2.rest.length _).trans h2).trans h1)
  obtain ⟨s1, t1, o, e1, e2, k1, k2⟩ := (sim_declCoreP hr s t _ h4 h).parts
  rw [e1, e2]
  cases o with
  | none => exact .fail k1
  | some q =>
    obtain ⟨⟨ref, core⟩, y⟩ := q
    have hy := h4.mono (at_of (in_declCoreP hr.ats) e1)
    obtain ⟨a1, a2⟩ := sim_argsP hr (in_anyDecl hr.ats) (sim_anyDecl hr) s1 t1 y hy k1.agree
    have a3 := (in_argsP (g := g) hr.ats (in_anyDecl hr.ats) s1 y).2.1
    obtain ⟨s2, t2, o, e3, e4, h3⟩ := a1.parts
    rw [e3] at a2 a3
    simp only [e3, e4]
    exact .ok (k1.trans h3) (dsame_mk (k2 _ _ rfl) a2 (arrayLoop_expr _ (hy.mono a3)))

theorem sim_absP {r : Rec} (hr : RecSim g S r) : SPSim g S (DSame g S) (absP g r) := by
  intro s t x hc h
  simp only [absP]
  have h1 := suf_qualP (cfg := g.cfg) x
  have hy := hc.mono ((suf_litD (c := '&') _).trans ((suf_ptrLoop (cfg := g.cfg) (qualP g.cfg x).2.rest.length _).trans h1))
  obtain ⟨a1, a2⟩ := sim_argsP hr hr.ats.abs hr.abs s t _ hy h
  have a3 := (in_argsP (g := g) hr.ats hr.ats.abs s
    ((lit '&' (ptrLoop g.cfg (qualP g.cfg x).2.rest.length (qualP g.cfg x).2).2).getD
      (ptrLoop g.cfg (qualP g.cfg x).2.rest.length (qualP g.cfg x).2).2)).2.1
  obtain ⟨s2, t2, o, e3, e4, h3⟩ := a1.parts
  rw [e3] at a2 a3
  simp only [e3, e4]
  refine .ok h3 (dsame_mk ?_ a2 (arrayLoop_expr _ (hy.mono a3)))
  intro a b _
  funext toks qs
  simp only [procCore]

theorem sim_gram (hg : NoEmpty g) : ∀ n, RecSim g S (gram g n)
  | 0 => ⟨in_gram hg 0, fun _ _ _ _ h => .fail (.refl h), fun _ _ _ _ h => .fail (.refl h), fun _ _ _ _ h => .fail (.refl h)⟩
  | n + 1 => ⟨in_gram hg (n + 1), sim_typeSpecP (sim_gram hg n), sim_declP (sim_gram hg n), sim_absP (sim_gram hg n)⟩

theorem sim_typedefP {r : Rec} (hr : RecSim g S r) : SPSim g S (fun p => ∀ d ∈ p.2, DSame g S d) (typedefP r) := by
  intro s t x hc h
  simp only [typedefP]
  split
  · exact .fail (.refl h)
  · rename_i y e0
    have hy := hc.mono (suf_keyword (by decide) e0).1
    obtain ⟨s1, t1, o, e1, e2, h1, h2⟩ := (hr.type s t _ hy h).parts
    rw [e1, e2]
    cases o with
    | none => exact .fail h1
    | some q =>
      obtain ⟨ty, z⟩ := q
      obtain ⟨s2, t2, o, e3, e4, h3, h4⟩ :=
        (sim_delimited hr.ats.decl hr.decl s1 t1 z (hy.mono (at_of hr.ats.type e1)) h1.agree).parts
      simp only [e3, e4]
      cases o with
      | none => exact .fail (h1.trans h3)
      | some q =>
        refine .same (h1.trans h3) fun a v ha => ?_
        obtain ⟨w, _, h5⟩ := Option.map_eq_some_iff.1 ha
        cases h5
        exact h4 _ _ rfl

theorem sim_functionP {r : Rec} (hr : RecSim g S r) : SPSim g S (fun p => DSame g S p.2) (functionP r) := by
  intro s t x hc h
  simp only [functionP]
  have h0 := hc.mono (suf_storageP x)
  obtain ⟨s1, t1, o, e1, e2, h1, h2⟩ := (hr.type s t _ h0 h).parts
  rw [e1, e2]
  cases o with
  | none => exact .fail h1
  | some q =>
    obtain ⟨ty, y⟩ := q
    obtain ⟨s2, t2, o, e3, e4, h3, h4⟩ := (hr.decl s1 t1 y (h0.mono (at_of hr.ats.type e1)) h1.agree).parts
    simp only [e3, e4]
    cases o with
    | none => exact .fail (h1.trans h3)
    | some q =>
      refine .same (h1.trans h3) fun a v ha => ?_
      obtain ⟨w, _, h5⟩ := Option.map_eq_some_iff.1 ha
      cases h5
      exact h4 _ _ rfl

theorem sim_topP {r : Rec} (hr : RecSim g S r) (s t : St) (x : Pos) (hc : CoversText g S x) (h : SameOn S s t) :
    Both S s t (topP g r s x) (topP g r t x) := by
  simp only [topP]
  obtain ⟨s1, t1, o, e1, e2, h1, h2⟩ := (sim_typedefP hr s t x hc h).parts
  rw [e1, e2]
  cases o with
  | some q =>
    obtain ⟨⟨⟨tq, tn⟩, ds⟩, y⟩ := q
    obtain ⟨s2, t2, o, e3, e4, h3⟩ := (both_typedefLoop (tq := tq) (tn := tn) h1.agree (h2 _ _ rfl)).parts
    simp only [procTypedef, e3, e4]
    cases o with
    | none => exact ⟨rfl, h1.trans h3⟩
    | some e => exact ⟨rfl, h1.trans h3⟩
  | none =>
    obtain ⟨s2, t2, o, e3, e4, h3, h4⟩ := (sim_varP hr s1 t1 x hc h1.agree).parts
    simp only [e3, e4]
    cases o with
    | some q =>
      obtain ⟨v, y⟩ := q
      have hv := h4 _ _ rfl
      have k := hv.2 _ _ h3.agree.tbl
      have k2 := both_varLoop (tq := v.tq) (tn := v.tn) (val := initVal (g.ev (s2.defs .values)) v.ini) h3.agree hv.1
      refine ⟨rfl, (h1.trans h3).trans ?_⟩
      simp only [procVariable, evIn, ← k]
      exact k2.2
    | none =>
      obtain ⟨s3, t3, o, e5, e6, h5, h6⟩ := (sim_functionP hr s2 t2 x hc h3.agree).parts
      simp only [e5, e6]
      cases o with
      | some q => exact ⟨rfl, ((h1.trans h3).trans h5).trans (both_procFunction h5.agree (h6 _ _ rfl))⟩
      | none => exact ⟨rfl, (h1.trans h3).trans h5⟩

theorem sim_scan (hg : NoEmpty g) (n : Nat) : ∀ (k : Nat) (s t : St) (x : Pos), CoversText g S x → SameOn S s t →
    Both S s t (scan g n k s x) (scan g n k t x)
  | 0, s, t, _, _, h => ⟨rfl, .refl h⟩
  | k + 1, s, t, x, hc, h => by
    simp only [scan]
    have h0 := hc.mono (suf_skip x)
    split
    · exact ⟨rfl, .refl h⟩
    · rename_i c u e0
      have h1 := in_topP (g := g) (in_gram hg n) s x.skip
      obtain ⟨s1, t1, o, e1, e2, h2⟩ := (sim_topP (sim_gram (S := S) hg n) s t x.skip h0 h).parts
      rw [e1] at h1
      simp only [e1, e2]
      cases o with
      | raised e => exact ⟨rfl, h2⟩
      | next y =>
        obtain ⟨a, b⟩ := sim_scan hg n k s1 t1 y (h0.mono (h1.2.1 y rfl)) h2.agree
        exact ⟨a, h2.trans b⟩
      | fail =>
        obtain ⟨a, b⟩ := sim_scan hg n k s1 t1 ⟨c, u⟩ (h0.mono ⟨[c], e0, rfl⟩) h2.agree
        exact ⟨a, h2.trans b⟩

/-- `parse_defs` on any text. -/
theorem sim_parseDefs (hg : NoEmpty g) {s t : St} {text : Str} (hc : CoversText g S ⟨' ', text⟩) (h : SameOn S s t) :
    Both S s t (parseDefs g s text) (parseDefs g t text) := sim_scan hg _ _ _ _ _ hc h

end
end Pyclib
