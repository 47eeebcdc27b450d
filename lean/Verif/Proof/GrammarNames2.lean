import Verif.Proof.GrammarNames
import Verif.Props.Decl
/-
The names that the parsers with side effects record are words of the text.
-/
namespace Pyclib
open Spec

/-! ### Processing of declarations -/

theorem anonLoop_digits (pre : Str) (used : Str → Bool) : ∀ (k n : Nat), ∃ i, anonLoop pre used k n = pre ++ natDigits i
  | 0, n => ⟨n, rfl⟩
  | k + 1, n => by
    unfold anonLoop
    split
    · exact anonLoop_digits pre used k (n + 1)
    · exact ⟨n, rfl⟩

theorem addsAt_enumLoop {x : Pos} (ev : EvalExpr) : ∀ (ms : List (Str × Option Str)) (s : Store DefVal) (i : PVal)
    (d : Dict Str PVal), EnumsAt x ms → AddsAt x s (enumLoop ev s i d ms).1
  | [], s, _, _, _ => .refl s
  | (n, e) :: ms, s, i, d, h => by
    simp only [enumLoop]
    have h1 : ∀ v, AddsAt x s (addDef s .values n v) := fun v => .one (h (n, e) (by simp))
    have h2 : EnumsAt x ms := fun m hm => h m (by simp [hm])
    split
    · exact (h1 _).trans (addsAt_enumLoop ev ms _ _ _ h2)
    · exact (h1 _).trans (addsAt_enumLoop ev ms _ _ _ h2)
    · exact h1 _

/-- Enumerators do not change the table of enums. -/
theorem enumLoop_enums (ev : EvalExpr) : ∀ (ms : List (Str × Option Str)) (s : Store DefVal) (i : PVal)
    (d : Dict Str PVal) (n : Str), dget ((enumLoop ev s i d ms).1.defs .enums) n = dget (s.defs .enums) n
  | [], s, _, _, _ => rfl
  | (m, e) :: ms, s, i, d, n => by
    have h1 : ∀ v, dget ((addDef s .values m v).defs .enums) n = dget (s.defs .enums) n := fun v => by
      rw [defs_addDef, if_neg (by simp)]
    simp only [enumLoop]
    split
    · rw [enumLoop_enums ev ms]; exact h1 _
    · rw [enumLoop_enums ev ms]; exact h1 _
    · exact h1 _

theorem memberDecls_length {ev : Str → PVal} {tq : List Str} {tn : Str} {val : PVal} {bit : Option Str} :
    ∀ {ds : List Decl} {out : List Member}, memberDecls ev tq tn val bit ds = .ok out → out.length = ds.length
  | [], out, h => by simp [memberDecls] at h; subst h; rfl
  | d :: ds, out, h => by
    simp only [memberDecls] at h
    split at h
    · cases h
    · split at h
      · cases h
      · split at h
        · cases h
        · rename_i e
          cases h
          simp [memberDecls_length e]

/-- Declared members give members. -/
theorem membersOf_ne {ev : Str → PVal} {ms : List MemberDecl} {out : List Member} (h : membersOf ev ms = .ok out)
    (hne : ms ≠ []) : out ≠ [] := by
  cases ms with
  | nil => exact absurd rfl hne
  | cons m ms =>
    simp only [membersOf] at h
    split at h
    · cases h
    · rename_i a ea
      split at h
      · cases h
      · cases h
        suffices a ≠ [] by simp [this]
        unfold memberOf at ea
        simp only at ea
        split at ea
        · split at ea
          · cases ea
          · cases ea; simp
        · rename_i hd
          have := memberDecls_length ea
          intro h0
          subst h0
          exact hd (List.length_eq_zero_iff.1 this.symm)

/-- The tag of a definition. -/
theorem tagAt_name {x : Pos} {w : Str} {name : Option Str} {d : Dict Str DefVal} (hw : WordAt w x)
    (ha : name = none → OpenAt w x) (hn : ∀ n, name = some n → IdentAt n x) :
    TagAt x w (name.getD (anonName (c%"anon_" ++ w) d)) := by
  refine ⟨hw, ?_⟩
  cases name with
  | some n => exact .inl (hn n rfl)
  | none => exact .inr ⟨ha rfl, anonLoop_digits _ _ _ _⟩

theorem addsAt_procEnum {x : Pos} (ev : EvalExpr) (s : Store DefVal) (name : Option Str) (ms : List (Str × Option Str))
    (hw : WordAt c%"enum" x) (ha : name = none → OpenAt c%"enum" x) (hn : ∀ n, name = some n → IdentAt n x) (hm : EnumsAt x ms) :
    AddsAt x s (procEnum ev s name ms).1 := by
  have ht := tagAt_name (d := s.defs .enums) hw ha hn
  rw [show c%"anon_" ++ c%"enum" = c%"anon_enum" from rfl] at ht
  simp only [procEnum]
  split
  · exact .refl s
  · rename_i hno
    have h := addsAt_enumLoop ev ms s (.int 0) [] hm
    have hen := enumLoop_enums ev ms s (.int 0) []
    split
    · rename_i e; rw [e] at h; exact h
    · rename_i e; rw [e] at h hen
      refine .add _ _ _ _ _ (.inr ⟨_, _, .inr (.inr rfl), rfl, ht⟩) (again_other (by decide)) (.add _ _ _ _ _ ht (again_new ?_) h)
      have := hen (name.getD (anonName c%"anon_enum" (s.defs .enums)))
      rw [dhas, this]
      simpa [dhas] using hno

theorem addsAt_procStruct {x : Pos} (ev : EvalExpr) (s : Store DefVal) (u : Bool) (name : Option Str)
    (ms : List MemberDecl) (pk : Option Nat) (hw : WordAt (compWord u) x)
    (ha : name = none → OpenAt (compWord u) x) (hn : ∀ n, name = some n → IdentAt n x)
    (hb : ms ≠ [] → ∀ n, name = some n → BodyAt (compWord u) n x) :
    AddsAt x s (procStruct ev s u name ms pk).1 := by
  have ht := tagAt_name (d := s.defs (compKind u)) hw ha hn
  simp only [procStruct]
  split
  · rename_i hms
    split
    · exact .refl s
    · rename_i out e
      refine .add _ _ _ _ _ (.inr ⟨_, _, ?_, rfl, ht⟩) (again_other (by decide)) (.one ?_ ?_)
      · cases u
        · exact .inl rfl
        · exact .inr (.inl rfl)
      · cases u <;> exact ht
      · intro hd
        rcases hms with hms | hms
        · refine ⟨fun u' hu => ?_, by cases u <;> decide⟩
          have : u' = u := by cases u <;> cases u' <;> first | rfl | cases hu
          subst this
          refine ⟨?_, out, pk, rfl, membersOf_ne e hms⟩
          cases name with
          | some n => exact hb hms n rfl
          | none =>
            rw [Option.getD_none, (C34_fresh _ _).1] at hd
            cases hd
        · rw [hms] at hd; cases hd
  · exact .refl s

theorem procType_name {ev : Str → PVal} {tq : List Str} {tn : Str} {d : Decl} {n : Option Str} {t : CType}
    (h : procType ev tq tn d = .ok (n, t)) : n = d.name := by
  have hs := procDecl_spec ev d
  unfold procType at h
  split at h
  · cases h
  · rename_i e
    split at h
    · cases h
    · cases h
      exact (hs.2 _ _ _ e).1

theorem procType_ok {ev : Str → PVal} {tq : List Str} {tn : Str} {d : Decl} (h : d.ConvOk) :
    ∃ p, procType ev tq tn d = .ok p := by
  obtain ⟨⟨n, toks, quals⟩, hp⟩ := procDecl_ok ev d h
  obtain ⟨_, h2, ⟨q, r, rfl⟩, _⟩ := (procDecl_spec ev d).2 _ _ _ hp
  unfold procType
  rw [hp]
  simp only [typeOf_ok tq tn toks q r h2]
  exact ⟨_, rfl⟩

theorem procType_err {ev : Str → PVal} {tq : List Str} {tn : Str} {d : Decl} {e : PyErr}
    (h : procType ev tq tn d = .error e) : e = .typeError := by
  have hs := procDecl_spec ev d
  unfold procType at h
  split at h
  · rename_i e1
    cases h
    exact hs.1 _ e1
  · rename_i e1
    obtain ⟨_, h2, ⟨q, r, rfl⟩, _⟩ := hs.2 _ _ _ e1
    rw [typeOf_ok tq tn _ q r h2] at h
    cases h

/-- Declarators of a list. -/
def DeclsAt (x : Pos) (ds : List Decl) : Prop := ∀ d ∈ ds, DeclAt x d

theorem keeps_decls : KeptAt DeclsAt := fun _ _ _ h hs d hd => (h d hd).mono hs

theorem nameOr_at {x : Pos} {d : Decl} (h : DeclAt x d) : IdentAt (nameOr d.name) x := by
  obtain ⟨⟨n, h1, h2⟩, _⟩ := h
  rw [h1]
  exact h2

theorem addsAt_typedefLoop {x : Pos} (hw : WordAt c%"typedef" x) (ev : EvalExpr) (tq : List Str) (tn : Str) :
    ∀ (ds : List Decl) (s : Store DefVal), DeclsAt x ds →
    AddsAt x s (typedefLoop ev tq tn s ds).1 ∧
      ∀ e, (typedefLoop ev tq tn s ds).2 = some e → e = .typeError ∧ ConvAt x
  | [], s, _ => ⟨.refl s, fun _ h => by simp [typedefLoop] at h⟩
  | d :: ds, s, h => by
    have hd := h d (by simp)
    simp only [typedefLoop]
    split
    · rename_i e0 e
      refine ⟨.refl s, fun e1 h1 => ?_⟩
      simp only [Option.some.injEq] at h1
      subst h1
      refine ⟨procType_err e, hd.2 fun hc => ?_⟩
      obtain ⟨p, hp⟩ := procType_ok (ev := evIn ev s) (tq := tq) (tn := tn) hc
      rw [hp] at e
      cases e
    · rename_i n t e
      have hn := procType_name e
      have ih := addsAt_typedefLoop hw ev tq tn ds (addDef s .types (nameOr n) (.type t)) fun d hd => h d (by simp [hd])
      exact ⟨(AddsAt.one (k := .types) (Or.inl ⟨by rw [hn]; exact nameOr_at hd, hw⟩)).trans ih.1, ih.2⟩

theorem addsAt_varLoop {x : Pos} (ev : EvalExpr) (tq : List Str) (tn : Str) (val : PVal) :
    ∀ (ds : List Decl) (s : Store DefVal), DeclsAt x ds → AddsAt x s (varLoop ev tq tn val s ds).1
  | [], s, _ => .refl s
  | d :: ds, s, h => by
    have hd := h d (by simp)
    have ih := fun s => addsAt_varLoop ev tq tn val ds s fun d hd => h d (by simp [hd])
    simp only [varLoop]
    split
    · exact .refl s
    · rename_i n t e
      have hn : IdentAt (nameOr n) x := by rw [procType_name e]; exact nameOr_at hd
      split
      · split
        · exact .refl s
        · exact (AddsAt.one (k := .functions) hn).trans (ih _)
      · exact (AddsAt.one (k := .variables) hn).trans ((AddsAt.one (k := .values) hn).trans (ih _))

theorem addsAt_procFunction {x : Pos} (ev : EvalExpr) (s : Store DefVal) (tq : List Str) (tn : Str) (d : Decl)
    (hd : DeclAt x d) : AddsAt x s (procFunction ev s tq tn d) := by
  simp only [procFunction]
  split
  · exact .refl s
  · rename_i n t e
    have hn : IdentAt (nameOr n) x := by rw [procType_name e]; exact nameOr_at hd
    split
    · split
      · exact .refl s
      · exact .one hn
    · exact .refl s

/-! ### Parsers -/

/-- Elements of a list. -/
def AllAt {α : Type} (Q : Pos → α → Prop) (x : Pos) (l : List α) : Prop := ∀ a ∈ l, Q x a

theorem keeps_all {α : Type} {Q : Pos → α → Prop} (h : KeptAt Q) : KeptAt (AllAt Q) :=
  fun _ _ _ h' hs a ha => h _ _ _ (h' a ha) hs

theorem in_commaLoop {α : Type} {Q : Pos → α → Prop} (hQ : KeptAt Q) {p : SP α} (hp : SPIn Q p) :
    ∀ (n : Nat) (s : Store DefVal) (x : Pos), AddsAt x s (commaLoopS p n s x).1 ∧ Suf (commaLoopS p n s x).2.2 x ∧
      AllAt Q x (commaLoopS p n s x).2.1
  | 0, s, x => ⟨.refl s, Suf.refl x, by simp [AllAt, commaLoopS]⟩
  | n + 1, s, x => by
    simp only [commaLoopS]
    split
    · exact ⟨.refl s, Suf.refl x, by simp [AllAt]⟩
    · rename_i y e0
      have hy := suf_lit e0
      have h1 := hp s y
      split
      · rename_i e
        exact ⟨((h1.of_eq e).1).mono hy, Suf.refl x, by simp [AllAt]⟩
      · rename_i s1 a z e
        obtain ⟨h2, h3⟩ := h1.of_eq e
        obtain ⟨h4, h5⟩ := h3 a z rfl
        obtain ⟨h6, h7, h8⟩ := in_commaLoop hQ hp n s1 z
        refine ⟨((h2.step h6 h4).mono hy), (h7.trans h4).trans hy, ?_⟩
        intro b hb
        rcases List.mem_cons.1 hb with rfl | hb
        · exact hQ _ _ _ h5 hy
        · exact hQ _ _ _ (h8 b hb) (h4.trans hy)

theorem in_delimited {α : Type} {Q : Pos → α → Prop} (hQ : KeptAt Q) {p : SP α} (hp : SPIn Q p) :
    SPIn (AllAt Q) (delimitedS p) := by
  intro s x
  simp only [delimitedS]
  have h1 := hp s x
  split
  · rename_i e; exact .fail (h1.of_eq e).1
  · rename_i s1 a y e
    obtain ⟨h2, h3⟩ := h1.of_eq e
    obtain ⟨h4, h5⟩ := h3 a y rfl
    obtain ⟨h6, h7, h8⟩ := in_commaLoop hQ hp y.rest.length s1 y
    refine .ok (h2.step h6 h4) (h7.trans h4) ?_
    intro b hb
    rcases List.mem_cons.1 hb with rfl | hb
    · exact h5
    · exact hQ _ _ _ (h8 b hb) h4

theorem decls_getD {x y : Pos} {o : Option (List Decl × Pos)} (hs : Suf y x)
    (h : ∀ a z, o = some (a, z) → Suf z y ∧ AllAt DeclAt y a) :
    Suf (o.getD ([], y)).2 x ∧ DeclsAt x (o.getD ([], y)).1 := by
  cases o with
  | none => exact ⟨hs, by simp [DeclsAt]⟩
  | some p =>
    obtain ⟨h1, h2⟩ := h p.1 p.2 rfl
    exact ⟨h1.trans hs, fun d hd => (h2 d hd).mono hs⟩

/-- Variables and members. -/
def VarAt (x : Pos) (v : VarDecl) : Prop := DeclsAt x v.decls

theorem in_varP {g : Gram} {r : Rec} (hr : RecIn r) : SPIn VarAt (varP g r) := by
  intro s x
  simp only [varP]
  have h1 := hr.type s (storageP x)
  have h0 := suf_storageP x
  split
  · rename_i e; exact .fail ((h1.of_eq e).1.mono h0)
  · rename_i s1 tq tn y e
    obtain ⟨h2, h3⟩ := h1.of_eq e
    have h4 := (h3 _ y rfl).1.trans h0
    have h5 := in_delimited keeps_decl hr.decl s1 y
    have h6 := (h2.mono h0).step h5.1 h4
    obtain ⟨h7, h8⟩ := decls_getD h4 h5.2
    split
    · exact .fail h6
    · rename_i v e3
      exact .ok h6 (((suf_delim e3).trans (suf_initP _)).trans h7) h8

theorem in_bitP {r : Rec} (hr : RecIn r) : SPIn (fun _ _ => True) (bitP r) := by
  intro s x
  simp only [bitP, optDecls]
  have h1 := hr.type s x
  split
  · rename_i e; exact .fail (h1.of_eq e).1
  · rename_i s1 tq tn y e
    obtain ⟨h2, h3⟩ := h1.of_eq e
    have h4 := (h3 _ y rfl).1
    have h5 := in_delimited keeps_decl hr.decl s1 y
    have h6 := h2.step h5.1 h4
    obtain ⟨h7, h8⟩ := decls_getD h4 h5.2
    split
    · exact .fail h6
    · rename_i b u e1
      split
      · exact .fail h6
      · rename_i v e2
        obtain ⟨z, h9, h10⟩ := Option.bind_eq_some_iff.1 e1
        exact .ok h6 ((((suf_delim e2).trans (suf_integerP h10)).trans (suf_delim h9)).trans h7) trivial

theorem in_methodP {r : Rec} (hr : RecIn r) : SPIn (fun _ _ => True) (methodP r) := by
  intro s x
  simp only [methodP]
  have h1 := hr.decl s x
  split
  · rename_i e; exact .fail (h1.of_eq e).1
  · rename_i s1 d y e
    obtain ⟨h2, h3⟩ := h1.of_eq e
    exact .map h2 fun b hb => ⟨(suf_nestedP hb).trans (h3 _ _ rfl).1, trivial⟩

theorem in_typedMethodP {r : Rec} (hr : RecIn r) : SPIn (fun _ _ => True) (typedMethodP r) := by
  intro s x
  simp only [typedMethodP]
  have h1 := hr.type s x
  split
  · rename_i e; exact .fail (h1.of_eq e).1
  · rename_i s1 t y e
    obtain ⟨h2, h3⟩ := h1.of_eq e
    exact .after keeps_true h2 (h3 _ _ rfl).1 (in_methodP hr _ _)

theorem in_memberP {g : Gram} {r : Rec} (hr : RecIn r) : SPIn (fun _ _ => True) (memberP g r) := by
  intro s x
  simp only [memberP]
  have h1 := in_varP (g := g) hr s x
  split
  · rename_i e
    obtain ⟨a, b⟩ := h1.of_eq e
    exact .ok a (b _ _ rfl).1 trivial
  · rename_i s1 e
    have k1 := (h1.of_eq e).1
    have h2 := in_bitP hr s1 x
    split
    · rename_i e
      obtain ⟨a, b⟩ := h2.of_eq e
      exact .ok (k1.trans a) (b _ _ rfl).1 trivial
    · rename_i s2 e
      have k2 := k1.trans (h2.of_eq e).1
      have h3 := in_typedMethodP hr s2 x
      split
      · rename_i e
        obtain ⟨a, b⟩ := h3.of_eq e
        exact .ok (k2.trans a) (b _ _ rfl).1 trivial
      · rename_i s3 e
        have k3 := k2.trans (h3.of_eq e).1
        have h4 := in_methodP hr s3 x
        split
        · rename_i e
          obtain ⟨a, b⟩ := h4.of_eq e
          exact .ok (k3.trans a) (b _ _ rfl).1 trivial
        · rename_i e; exact .fail (k3.trans (h4.of_eq e).1)

theorem in_memberLoop {g : Gram} {r : Rec} (hr : RecIn r) : ∀ (n : Nat) (s : Store DefVal) (x : Pos),
    AddsAt x s (memberLoop g r n s x).1 ∧ Suf (memberLoop g r n s x).2.2 x
  | 0, s, x => ⟨.refl s, Suf.refl x⟩
  | n + 1, s, x => by
    simp only [memberLoop]
    have h1 := in_memberP (g := g) hr s x
    split
    · rename_i e; exact ⟨(h1.of_eq e).1, Suf.refl x⟩
    · rename_i s1 m y e
      obtain ⟨h2, h3⟩ := h1.of_eq e
      have h4 := (h3 _ _ rfl).1
      have ih := in_memberLoop (g := g) hr n s1 y
      exact ⟨h2.step ih.1 h4, ih.2.trans h4⟩

theorem in_bodyP {g : Gram} {r : Rec} (hr : RecIn r) : SPIn (fun _ _ => True) (bodyP g r) := by
  intro s x
  simp only [bodyP]
  split
  · exact .fail (.refl s)
  · rename_i y e0
    have hy := suf_delim e0
    have h1 := in_memberP (g := g) hr s y
    split
    · rename_i e; exact .fail ((h1.of_eq e).1.mono hy)
    · rename_i s1 m z e
      obtain ⟨h2, h3⟩ := h1.of_eq e
      have h4 := (h3 _ _ rfl).1.trans hy
      have ih := in_memberLoop (g := g) hr (z.rest.length + 1) s1 z
      exact .map ((h2.mono hy).step ih.1 h4) fun b hb => ⟨((suf_delim hb).trans ih.2).trans h4, trivial⟩

theorem optIdent_none {cfg : Cfg} {y : Pos} (h : (optIdent cfg y).1 = none) : (optIdent cfg y).2 = y := by
  unfold optIdent at h ⊢
  split at h
  · cases h
  · rfl

theorem in_structP {g : Gram} {r : Rec} (hr : RecIn r) : SPIn (fun _ _ => True) (structP g r) := by
  intro s x
  simp only [structP, structP.finish]
  split
  · exact .fail (.refl s)
  · rename_i u y e0
    obtain ⟨hy, hw⟩ := suf_structKw e0
    obtain ⟨ho, hn⟩ := suf_optIdent (cfg := g.cfg) y
    have hz := ho.trans hy
    have h1 := in_bodyP (g := g) hr s (optIdent g.cfg y).2
    split
    · rename_i s1 ms v e
      obtain ⟨h2, h3⟩ := h1.of_eq e
      have ha : (optIdent g.cfg y).1 = none → OpenAt (compWord u) x := by
        intro hno
        rw [optIdent_none hno] at e
        unfold bodyP at e
        split at e
        · cases e
        · rename_i e3
          exact openAt_structKw e0 e3
      have hb : ∀ n, (optIdent g.cfg y).1 = some n → BodyAt (compWord u) n x := by
        intro n hno
        unfold optIdent at e hno
        cases hi : identP g.cfg y with
        | none => rw [hi] at hno; cases hno
        | some p =>
          rw [hi] at e hno
          simp only [Option.some.injEq] at hno e
          unfold bodyP at e
          split at e
          · cases e
          · rename_i e3
            exact bodyAt_structKw e0 (n := n) (by rw [hi, ← hno]) e3
      exact .ok ((h2.mono hz).trans (addsAt_procStruct _ _ _ _ _ _ hw ha (fun n h => (hn n h).mono hy) fun _ => hb))
        ((h3 _ _ rfl).1.trans hz) trivial
    · rename_i s1 e
      have h2 := (h1.of_eq e).1.mono hz
      split
      · exact .fail h2
      · rename_i i v e2
        obtain ⟨h3, h4⟩ := suf_identP e2
        refine .ok (h2.trans (addsAt_procStruct _ _ _ _ _ _ hw (fun h => nomatch h) (fun n h => ?_)
          fun h => absurd rfl h)) (h3.trans hy) trivial
        cases h
        exact h4.mono hy

theorem in_enumP {g : Gram} : SPIn (fun _ _ => True) (enumP g) := by
  intro s x
  simp only [enumP, enumP.finish]
  split
  · exact .fail (.refl s)
  · rename_i y e0
    obtain ⟨hy, hw⟩ := suf_keyword (by decide) e0
    obtain ⟨ho, hn⟩ := suf_optIdent (cfg := g.cfg) y
    have hz := ho.trans hy
    split
    · rename_i ms v e
      obtain ⟨h2, h3⟩ := suf_enumBodyP e
      have ha : (optIdent g.cfg y).1 = none → OpenAt c%"enum" x := by
        intro hno
        rw [optIdent_none hno] at e
        unfold enumBodyP at e
        cases e3 : delim '{' y with
        | none => rw [e3] at e; cases e
        | some v => exact openAt_keyword e0 e3
      exact .ok (addsAt_procEnum _ _ _ _ hw ha (fun n h => (hn n h).mono hy) fun m hm => (h3 m hm).mono hz)
        (h2.trans hz) trivial
    · split
      · exact .fail (.refl s)
      · rename_i i v e2
        obtain ⟨h3, h4⟩ := suf_identP e2
        refine .ok (addsAt_procEnum _ _ _ _ hw (fun h => nomatch h) (fun n h => ?_) (by simp [EnumsAt])) (h3.trans hy) trivial
        cases h
        exact h4.mono hy

theorem in_typeNameP {g : Gram} (hg : NoEmpty g) {r : Rec} (hr : RecIn r) : SPIn (fun _ _ => True) (typeNameP g r) := by
  intro s x
  simp only [typeNameP]
  split
  · rename_i p e; exact .ok (.refl s) (suf_fundP hg (w := p.1) (y := p.2) e) trivial
  · split
    · rename_i p e; exact .ok (.refl s) (suf_identP (w := p.1) (y := p.2) e).1 trivial
    · have h1 := in_structP (g := g) hr s x
      split
      · rename_i s1 p e
        obtain ⟨a, b⟩ := h1.of_eq e
        exact .ok a (b p.1 p.2 rfl).1 trivial
      · rename_i e
        exact .after keeps_true (h1.of_eq e).1 (Suf.refl x) (in_enumP _ _)

theorem in_typeSpecP {g : Gram} (hg : NoEmpty g) {r : Rec} (hr : RecIn r) : SPIn (fun _ _ => True) (typeSpecP g r) := by
  intro s x
  simp only [typeSpecP]
  have hq := suf_qualP (cfg := g.cfg) x
  have h1 := in_typeNameP hg hr s (qualP g.cfg x).2
  split
  · rename_i e; exact .fail ((h1.of_eq e).1.mono hq)
  · rename_i s1 n y e
    obtain ⟨a, b⟩ := h1.of_eq e
    exact .ok (a.mono hq) (((suf_modLoop hg.mods _ _).trans (b _ _ rfl).1).trans hq) trivial

/-- Parameters. -/
def ParamAt (x : Pos) (p : ParamTok) : Prop := AbsAt x p.d
theorem keeps_param : KeptAt ParamAt := fun _ _ _ h hs => AbsAt.mono h hs

theorem in_paramP {g : Gram} {r : Rec} (hr : RecIn r) {dp : SP Decl} (hd : SPIn AbsAt dp) :
    SPIn ParamAt (paramP g r dp) := by
  intro s x
  simp only [paramP]
  have h1 := hr.type s x
  split
  · rename_i e; exact .fail (h1.of_eq e).1
  · rename_i s1 tq tn y e
    obtain ⟨a, b⟩ := h1.of_eq e
    have hy := (b _ _ rfl).1
    have h2 := hd s1 y
    split
    · rename_i e; exact .fail (a.step (h2.of_eq e).1 hy)
    · rename_i s2 d z e
      obtain ⟨a2, b2⟩ := h2.of_eq e
      obtain ⟨b3, b4⟩ := b2 _ _ rfl
      exact .ok (a.step a2 hy) (((suf_defaultP _).trans b3).trans hy) (AbsAt.mono b4 hy)

theorem toArgs_conv {x : Pos} : ∀ (ps : List ParamTok), AllAt ParamAt x ps → ¬ (toArgs ps).ConvOk → ConvAt x
  | [], _, h => absurd trivial h
  | p :: ps, hp, h => by
    by_cases hd : p.d.ConvOk
    · refine toArgs_conv ps (fun q hq => hp q (by simp [hq])) fun hc => h ⟨hd, hc⟩
    · exact hp p (by simp) hd

theorem in_argsP {g : Gram} {r : Rec} (hr : RecIn r) {dp : SP Decl} (hd : SPIn AbsAt dp) (s : Store DefVal) (x : Pos) :
    AddsAt x s (argsP g r dp s x).1 ∧ Suf (argsP g r dp s x).2.2 x ∧ (¬ (argsP g r dp s x).2.1.2.ConvOk → ConvAt x) := by
  simp only [argsP]
  split
  · exact ⟨.refl s, Suf.refl x, fun h => absurd trivial h⟩
  · rename_i y e0
    have hy := suf_lit e0
    have h1 := in_delimited keeps_param (in_paramP (g := g) hr hd) s y
    have hq : Suf ((delimitedS (paramP g r dp) s y).2.getD ([], y)).2 y ∧
        AllAt ParamAt y ((delimitedS (paramP g r dp) s y).2.getD ([], y)).1 := by
      cases e : (delimitedS (paramP g r dp) s y).2 with
      | none => exact ⟨Suf.refl y, by simp [AllAt]⟩
      | some p => exact h1.2 p.1 p.2 e
    split
    · exact ⟨h1.1.mono hy, Suf.refl x, fun h => absurd trivial h⟩
    · rename_i u e2
      exact ⟨h1.1.mono hy, ((suf_delim e2).trans hq.1).trans hy, fun h => (toArgs_conv _ hq.2 h).mono hy⟩

theorem in_anyDecl {r : Rec} (hr : RecIn r) : SPIn AbsAt (anyDecl r) := by
  intro s x
  simp only [anyDecl]
  have h1 := hr.decl s x
  split
  · rename_i s1 p e
    obtain ⟨a, b⟩ := h1.of_eq e
    obtain ⟨b1, b2⟩ := b p.1 p.2 rfl
    exact .ok a b1 b2.2
  · rename_i e
    exact .after keeps_abs (h1.of_eq e).1 (Suf.refl x) (hr.abs _ _)

/-- The core of a declarator. -/
def CoreAt (x : Pos) (c : Bool × Core) : Prop := (∃ n, c.2.dname = some n ∧ IdentAt n x) ∧ (¬ c.2.ConvOk → ConvAt x)

theorem refName_at {g : Gram} {x y : Pos} {c : Bool × Core} (h : declCoreP.refName g x = some (c, y)) :
    Suf y x ∧ CoreAt x c := by
  unfold declCoreP.refName at h
  split at h
  · rename_i z e
    obtain ⟨⟨n, u⟩, h1, h2⟩ := Option.map_eq_some_iff.1 h
    cases h2
    obtain ⟨h3, h4⟩ := suf_identP h1
    exact ⟨h3.trans (suf_lit e), ⟨_, rfl, h4.mono (suf_lit e)⟩, fun h => absurd trivial h⟩
  · obtain ⟨⟨n, u⟩, h1, h2⟩ := Option.map_eq_some_iff.1 h
    cases h2
    obtain ⟨h3, h4⟩ := suf_identP h1
    exact ⟨h3, ⟨_, rfl, h4⟩, fun h => absurd trivial h⟩

theorem in_declCoreP {g : Gram} {r : Rec} (hr : RecIn r) : SPIn CoreAt (declCoreP g r) := by
  intro s x
  simp only [declCoreP]
  split
  · rename_i p e
    obtain ⟨h1, h2⟩ := refName_at (c := p.1) (y := p.2) e
    exact .ok (.refl s) h1 h2
  · split
    · exact .fail (.refl s)
    · rename_i y e0
      have hy := suf_lit e0
      have h1 := hr.decl s y
      split
      · rename_i e; exact .fail ((h1.of_eq e).1.mono hy)
      · rename_i s1 d z e
        obtain ⟨a, b⟩ := h1.of_eq e
        obtain ⟨b1, b2⟩ := b _ _ rfl
        have b3 := b2.mono hy
        exact .map (a.mono hy) fun u hu => ⟨((suf_delim hu).trans b1).trans hy, b3.1, b3.2⟩

/-- A declarator has only real calling conventions in allowed places, unless there is one in the text. -/
theorem conv_mk {x : Pos} {q : List Str} {c : Option Str} {p : List (List Str)} {ref : Bool} {core : Core} {h : Bool}
    {as : ArgList} {ar : List Str} (hc : ∀ k, c = some k → (k = c%"__cdecl" ∨ k = c%"__stdcall") ∧ ConvAt x)
    (h1 : ¬ core.ConvOk → ConvAt x) (h2 : ¬ as.ConvOk → ConvAt x) : AbsAt x (.mk q c p ref core h as ar) := by
  intro hn
  by_cases k1 : core.ConvOk
  · by_cases k2 : as.ConvOk
    · cases c with
      | none => exact absurd ⟨fun _ e => (by cases e), .inl rfl, k1, fun _ => k2⟩ hn
      | some k => exact (hc k rfl).2
    · exact h2 k2
  · exact h1 k1

theorem in_declP {g : Gram} {r : Rec} (hr : RecIn r) : SPIn DeclAt (declP g r) := by
  intro s x
  simp only [declP]
  have h1 := suf_qualP (cfg := g.cfg) x
  obtain ⟨h2, h3⟩ := suf_convP (qualP g.cfg x).2
  have h4 := ((suf_ptrLoop (cfg := g.cfg) (convP (qualP g.cfg x).2).2.rest.length _).trans h2).trans h1
  have h5 := in_declCoreP (g := g) hr s
    (ptrLoop g.cfg (convP (qualP g.cfg x).2).2.rest.length (convP (qualP g.cfg x).2).2).2
  split
  · rename_i e; exact .fail ((h5.of_eq e).1.mono h4)
  · rename_i s1 ref core y e
    obtain ⟨a, b⟩ := h5.of_eq e
    obtain ⟨b1, ⟨n, b2, b3⟩, b4⟩ := b _ _ rfl
    have hy := b1.trans h4
    obtain ⟨c1, c2, c3⟩ := in_argsP (g := g) hr (in_anyDecl hr) s1 y
    refine .ok ((a.mono h4).step c1 hy) (((suf_arrayLoop _ _).trans c2).trans hy) ⟨⟨n, b2, b3.mono h4⟩, ?_⟩
    exact conv_mk (fun k hk => ⟨(h3 k hk).1, (h3 k hk).2.mono h1⟩) (fun h => (b4 h).mono h4) fun h => (c3 h).mono hy

theorem in_absP {g : Gram} {r : Rec} (hr : RecIn r) : SPIn AbsAt (absP g r) := by
  intro s x
  simp only [absP]
  have h1 := suf_qualP (cfg := g.cfg) x
  have h4 := (suf_litD (c := '&') _).trans ((suf_ptrLoop (cfg := g.cfg) (qualP g.cfg x).2.rest.length _).trans h1)
  obtain ⟨c1, c2, c3⟩ := in_argsP (g := g) hr hr.abs s
    ((lit '&' (ptrLoop g.cfg (qualP g.cfg x).2.rest.length (qualP g.cfg x).2).2).getD
      (ptrLoop g.cfg (qualP g.cfg x).2.rest.length (qualP g.cfg x).2).2)
  refine .ok (c1.mono h4) (((suf_arrayLoop _ _).trans c2).trans h4) ?_
  exact conv_mk (fun k hk => by cases hk) (fun h => absurd trivial h) fun h => (c3 h).mono h4

theorem in_gram {g : Gram} (hg : NoEmpty g) : ∀ n, RecIn (gram g n)
  | 0 => ⟨fun s _ => .fail (.refl s), fun s _ => .fail (.refl s), fun s _ => .fail (.refl s)⟩
  | n + 1 => ⟨in_typeSpecP hg (in_gram hg n), in_declP (in_gram hg n), in_absP (in_gram hg n)⟩

/-- Typedefs. -/
def TdAt (x : Pos) (t : (List Str × Str) × List Decl) : Prop := WordAt c%"typedef" x ∧ DeclsAt x t.2

theorem in_typedefP {r : Rec} (hr : RecIn r) : SPIn TdAt (typedefP r) := by
  intro s x
  simp only [typedefP]
  split
  · exact .fail (.refl s)
  · rename_i y e0
    obtain ⟨hy, hw⟩ := suf_keyword (by decide) e0
    have h1 := hr.type s y
    split
    · rename_i e; exact .fail ((h1.of_eq e).1.mono hy)
    · rename_i s1 t z e
      obtain ⟨a, b⟩ := h1.of_eq e
      have hz := (b _ _ rfl).1.trans hy
      have h2 := in_delimited keeps_decl hr.decl s1 z
      split
      · rename_i e; exact .fail ((a.mono hy).step (h2.of_eq e).1 hz)
      · rename_i s2 ds u e
        obtain ⟨a2, b2⟩ := h2.of_eq e
        obtain ⟨b3, b4⟩ := b2 _ _ rfl
        exact .map ((a.mono hy).step a2 hz) fun v hv => ⟨((suf_delim hv).trans b3).trans hz, hw,
          fun d hd => (b4 d hd).mono hz⟩

/-- Functions with a body. -/
def FnAt (x : Pos) (t : (List Str × Str) × Decl) : Prop := DeclAt x t.2

theorem in_functionP {r : Rec} (hr : RecIn r) : SPIn FnAt (functionP r) := by
  intro s x
  simp only [functionP]
  have h0 := suf_storageP x
  have h1 := hr.type s (storageP x)
  split
  · rename_i e; exact .fail ((h1.of_eq e).1.mono h0)
  · rename_i s1 t y e
    obtain ⟨a, b⟩ := h1.of_eq e
    have hy := (b _ _ rfl).1.trans h0
    have h2 := hr.decl s1 y
    split
    · rename_i e; exact .fail ((a.mono h0).step (h2.of_eq e).1 hy)
    · rename_i s2 d z e
      obtain ⟨a2, b2⟩ := h2.of_eq e
      obtain ⟨b3, b4⟩ := b2 _ _ rfl
      exact .map ((a.mono h0).step a2 hy) fun v hv => ⟨((suf_nestedP hv).trans b3).trans hy, b4.mono hy⟩

/-- One attempt at a position. -/
def TopAt (s : Store DefVal) (x : Pos) (p : Store DefVal × Top) : Prop :=
  AddsAt x s p.1 ∧ (∀ y, p.2 = .next y → Suf y x) ∧
    ∀ e, p.2 = .raised e → e = .typeError ∧ WordAt c%"typedef" x ∧ ConvAt x

theorem in_topP {g : Gram} {r : Rec} (hr : RecIn r) (s : Store DefVal) (x : Pos) : TopAt s x (topP g r s x) := by
  simp only [topP]
  have h1 := in_typedefP hr s x
  split
  · rename_i s1 tq tn ds y e
    obtain ⟨a, b⟩ := h1.of_eq e
    obtain ⟨hy, hw, hd⟩ := b _ _ rfl
    obtain ⟨h2, h3⟩ := addsAt_typedefLoop hw g.ev tq tn ds s1 hd
    rw [← procTypedef] at h2 h3
    split
    · rename_i e
      rw [e] at h2
      exact ⟨a.trans h2, fun _ h => by cases h; exact hy, fun _ h => by cases h⟩
    · rename_i e1 e
      rw [e] at h2 h3
      refine ⟨a.trans h2, fun _ h => (by cases h), fun _ h => ?_⟩
      cases h
      exact ⟨(h3 _ rfl).1, hw, (h3 _ rfl).2⟩
  · rename_i s1 e
    have k1 := (h1.of_eq e).1
    have h2 := in_varP (g := g) hr s1 x
    split
    · rename_i s2 v y e
      obtain ⟨a, b⟩ := h2.of_eq e
      obtain ⟨hy, hd⟩ := b _ _ rfl
      exact ⟨(k1.trans a).trans (addsAt_varLoop _ _ _ _ _ _ hd), fun _ h => by cases h; exact hy, fun _ h => by cases h⟩
    · rename_i s2 e
      have k2 := k1.trans (h2.of_eq e).1
      have h3 := in_functionP hr s2 x
      split
      · rename_i s3 tq tn d y e
        obtain ⟨a, b⟩ := h3.of_eq e
        obtain ⟨hy, hd⟩ := b _ _ rfl
        exact ⟨(k2.trans a).trans (addsAt_procFunction _ _ _ _ _ hd), fun _ h => by cases h; exact hy,
          fun _ h => by cases h⟩
      · rename_i e
        exact ⟨k2.trans (h3.of_eq e).1, fun _ h => (by cases h), fun _ h => by cases h⟩

theorem in_scan {g : Gram} (hg : NoEmpty g) (n : Nat) : ∀ (k : Nat) (s : Store DefVal) (x : Pos),
    AddsAt x s (scan g n k s x).1 ∧
      ∀ e, (scan g n k s x).2 = some e → e = .typeError ∧ WordAt c%"typedef" x ∧ ConvAt x
  | 0, s, _ => ⟨.refl s, fun _ h => by simp [scan] at h⟩
  | k + 1, s, x => by
    simp only [scan]
    have h0 := suf_skip x
    split
    · exact ⟨.refl s, fun _ h => by cases h⟩
    · rename_i c t e0
      have h1 := in_topP (g := g) (in_gram hg n) s x.skip
      split
      · rename_i s1 e1 e
        rw [e] at h1
        refine ⟨h1.1.mono h0, fun e2 h => ?_⟩
        cases h
        obtain ⟨a, b, c⟩ := h1.2.2 _ rfl
        exact ⟨a, b.mono h0, c.mono h0⟩
      · rename_i s1 y e
        rw [e] at h1
        have hy := (h1.2.1 _ rfl).trans h0
        have ih := in_scan hg n k s1 y
        exact ⟨(h1.1.mono h0).step ih.1 hy, fun e2 h => by
          obtain ⟨a, b, c⟩ := ih.2 _ h
          exact ⟨a, b.mono hy, c.mono hy⟩⟩
      · rename_i s1 e
        rw [e] at h1
        have hy : Suf ⟨c, t⟩ x := Suf.trans ⟨[c], e0, rfl⟩ h0
        have ih := in_scan hg n k s1 ⟨c, t⟩
        exact ⟨(h1.1.mono h0).step ih.1 hy, fun e2 h => by
          obtain ⟨a, b, c⟩ := ih.2 _ h
          exact ⟨a, b.mono hy, c.mono hy⟩⟩

/-- `parse_defs` on any text. -/
theorem in_parseDefs {g : Gram} (hg : NoEmpty g) (s : Store DefVal) (text : Str) :
    AddsAt ⟨' ', text⟩ s (parseDefs g s text).1 ∧
      ∀ e, (parseDefs g s text).2 = some e →
        e = .typeError ∧ WordAt c%"typedef" ⟨' ', text⟩ ∧ ConvAt ⟨' ', text⟩ := in_scan hg _ _ _ _

end Pyclib
