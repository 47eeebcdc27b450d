import Verif.Spec.Independent
import Verif.Proof.GrammarTop
import Verif.Props.Decl
/-
Proof that the reading of declarations depends on and changes the names that they mention only.
-/
namespace Pyclib

open Spec

theorem Spec.Covers.part {g : Gram} {S : Scope} {a b c : List Tk} (h : Covers g S (a ++ (b ++ c))) : Covers g S b where
  ident t ht := h.ident t (by simp [ht])
  tag := fun x kw n y e => h.tag (a ++ x) kw n (y ++ c) (by rw [e]; simp)
  anon := fun x kw l y e => h.anon (a ++ x) kw l (y ++ c) (by rw [e]; simp)
  expr x y z e hy hx := h.expr (a ++ x) y (z ++ c) e (by rw [hy]; simp) hx
  minus := h.minus

theorem Spec.Covers.left {g : Gram} {S : Scope} {a b : List Tk} (h : Covers g S (a ++ b)) : Covers g S a :=
  Covers.part (a := []) h
theorem Spec.Covers.right {g : Gram} {S : Scope} {a b : List Tk} (h : Covers g S (a ++ b)) : Covers g S b :=
  Covers.part (a := a) (b := b) (c := []) (by simpa using h)
theorem Spec.Covers.tail {g : Gram} {S : Scope} {a : Tk} {b : List Tk} (h : Covers g S (a :: b)) : Covers g S b :=
  Covers.right (a := [a]) h
theorem Spec.Covers.whole {g : Gram} {S : Scope} {b : List Tk} {e : Str} (h : Covers g S b) (he : ExprTks g b e) :
    EvSame g S e := h.expr [] b [] e (by simp) he

/-- Two tables of values that agree as far as the scope is concerned. -/
def TAgree (S : Scope) (a b : Dict Str DefVal) : Prop := ∀ n, S.vals n → dget a n = dget b n

section
variable {g : Gram} {S : Scope}

/-! ### Evaluations in declarators -/

theorem arrays_same {ts : List Tk} {es : List Str} (h : Arrays g ts es) : Covers g S ts → ∀ e ∈ es, EvSame g S e := by
  induction h with
  | nil => intro _ e he; cases he
  | empty l r ts es h1 h2 _ ih =>
    intro hc e he
    rcases List.mem_cons.1 he with rfl | he
    · exact hc.minus
    · exact ih hc.tail.tail e he
  | len l r b ts x es h1 h2 h3 _ ih =>
    intro hc e he
    rcases List.mem_cons.1 he with rfl | he
    · exact hc.tail.left.whole h3
    · exact ih hc.tail.right.tail e he

theorem levelToks_same {conv : Option Str} {ps : List (List Str)} {es : List Str} (he : ∀ e ∈ es, EvSame g S e)
    {a b : Dict Str DefVal} (hab : TAgree S a b) : levelToks (g.ev a) conv ps es = levelToks (g.ev b) conv ps es := by
  unfold levelToks
  congr 1
  exact List.map_congr_left fun e h => by rw [he e h a b hab]

/-- The declarator is processed in the same way with all tables that agree as far as the scope is concerned. -/
def DSame (g : Gram) (S : Scope) (d : Decl) : Prop :=
  ∀ a b, TAgree S a b → procDecl (g.ev a) d = procDecl (g.ev b) d

/-- The name of the declarator is in the scope. -/
def DNamed (g : Gram) (S : Scope) (d : Decl) : Prop :=
  ∀ a r, procDecl (g.ev a) d = .ok r → ∃ n, r.1 = some n ∧ S.names n

theorem abs_same {ts : List Tk} {d : Decl} (h : CAbs g ts d) (hc : Covers g S ts) : DSame g S d := by
  cases h with
  | mk q p a r qs ps ref es h1 h2 h3 h4 h5 =>
    intro x y hab
    simp only [procDecl, procArgs, procCore, levelToks_same (arrays_same h5 hc.right.right.right) hab]

mutual
theorem declr_same : {s s' : St} → {ts : List Tk} → {d : Decl} → CDeclr g s ts s' d → Covers g S ts →
    DSame g S d ∧ DNamed g S d
  | _, _, _, _, .mk s s1 s2 q c p co ar a qs conv ps ref core h as es hq hn hc hp hj hco har ha => by
    intro hv
    have h1 := core_same hco hv.right.right.right.left
    have h2 := args_same har hv.right.right.right.right.left
    have h3 := fun {x y} => levelToks_same (conv := conv) (ps := ps) (arrays_same ha hv.right.right.right.right.right) (a := x) (b := y)
    constructor
    · intro x y hab
      simp only [procDecl, h2 x y hab, h3 hab, h1.1 x y hab]
    · intro x r hr
      simp only [procDecl] at hr
      split at hr
      · split at hr
        · cases hr
        · exact h1.2 _ _ _ _ hr
      · exact h1.2 _ _ _ _ hr
theorem core_same : {s s' : St} → {ts : List Tk} → {ref : Bool} → {core : Core} → CCore g s ts s' ref core → Covers g S ts →
    (∀ a b, TAgree S a b → procCore (g.ev a) ref core = procCore (g.ev b) ref core) ∧
    ∀ a toks qs r, procCore (g.ev a) ref core toks qs = .ok r → ∃ n, r.1 = some n ∧ S.names n
  | _, _, _, _, _, .name s a ref n ha hn => by
    intro hv
    constructor
    · intro x y _
      funext toks qs
      simp only [procCore]
    · intro x toks qs r hr
      simp only [procCore, Except.ok.injEq] at hr
      subst hr
      exact ⟨_, rfl, hv.ident n (by simp) hn⟩
  | _, _, _, _, _, .center s s' l r ts d hl hr hd => by
    intro hv
    obtain ⟨h1, h2⟩ := declr_same hd hv.tail.left
    constructor
    · intro x y hab
      funext toks qs
      simp only [procCore, h1 x y hab]
    · intro x toks qs r hr
      simp only [procCore] at hr
      split at hr
      · cases hr
      · rename_i n t q hd
        obtain ⟨m, e, hm⟩ := h2 _ _ hd
        split at hr
        · cases hr
        · simp only [Except.ok.injEq] at hr
          subst hr
          exact ⟨m, e, hm⟩
theorem args_same : {s s' : St} → {ts : List Tk} → {b : Bool} → {as : ArgList} → CArgs g s ts s' b as → Covers g S ts →
    ∀ x y, TAgree S x y → procArgs (g.ev x) as = procArgs (g.ev y) as
  | _, _, _, _, _, .none s => fun _ _ _ _ => by simp only [procArgs]
  | _, _, _, _, _, .empty s l r h1 h2 => fun _ _ _ _ => by simp only [procArgs]
  | _, _, _, _, _, .list s s' l r ps as h1 h2 h3 => fun hv => params_same h3 hv.tail.left
theorem params_same : {s s' : St} → {ts : List Tk} → {as : ArgList} → CParams g s ts s' as → Covers g S ts →
    ∀ x y, TAgree S x y → procArgs (g.ev x) as = procArgs (g.ev y) as
  | _, _, _, _, .one s s' ts tq tn d val hp => fun hv x y hab => by
    simp only [procArgs, param_same hp hv x y hab]
  | _, _, _, _, .more s s1 s2 ts ts' c tq tn d val as hp hc hps => fun hv x y hab => by
    simp only [procArgs, param_same hp hv.left x y hab, params_same hps hv.right.tail x y hab]
theorem param_same : {s s' : St} → {ts : List Tk} → {tq : List Str} → {tn : Str} → {d : Decl} → {val : Option Str} →
    CParam g s ts s' tq tn d val → Covers g S ts → DSame g S d
  | _, _, _, _, _, _, _, .named s s1 s2 t dk v tq tn d val h1 h2 h3 h4 => fun hv => (declr_same h2 hv.right.left).1
  | _, _, _, _, _, _, _, .abs s s1 t dk v tq tn d val h1 h2 h3 => fun hv => abs_same h2 hv.right.left
end

theorem decls_same : {s s' : St} → {ts : List Tk} → {ds : List Decl} → CDecls g s ts s' ds → Covers g S ts →
    ∀ d ∈ ds, DSame g S d ∧ DNamed g S d
  | _, _, _, _, .one s s' ts d h => fun hv x hx => by
    rw [List.mem_singleton.1 hx]; exact declr_same h hv
  | _, _, _, _, .more s s1 s2 ts ts' c d ds h1 h2 h3 => fun hv x hx => by
    rcases List.mem_cons.1 hx with rfl | hx
    · exact declr_same h1 hv.left
    · exact decls_same h3 hv.right.tail x hx

theorem procType_same {d : Decl} (h : DSame g S d) {tq : List Str} {tn : Str} {a b : Dict Str DefVal} (hab : TAgree S a b) :
    procType (g.ev a) tq tn d = procType (g.ev b) tq tn d := by
  simp only [procType, h a b hab]

theorem procType_named {d : Decl} (h : DNamed g S d) {tq : List Str} {tn : Str} {a : Dict Str DefVal} {n : Option Str} {t : CType}
    (e : procType (g.ev a) tq tn d = .ok (n, t)) : S.names (nameOr n) := by
  unfold procType at e
  split at e
  · cases e
  · rename_i m toks qs hd
    obtain ⟨k, hk, hp⟩ := h _ _ hd
    split at e
    · cases e
    · simp only [Except.ok.injEq, Prod.mk.injEq] at e
      simp only at hk
      rw [← e.1, hk]
      exact hp

/-- The members are processed in the same way with all tables that agree as far as the scope is concerned. -/
def MSame (g : Gram) (S : Scope) (ms : List MemberDecl) : Prop :=
  ∀ m ∈ ms, m.value = none ∧ ∀ d ∈ m.decls, DSame g S d

theorem membersOf_same {ms : List MemberDecl} (h : MSame g S ms) {a b : Dict Str DefVal} (hab : TAgree S a b) :
    membersOf (g.ev a) ms = membersOf (g.ev b) ms := by
  have hds : ∀ (tq : List Str) (tn : Str) (val : PVal) (bit : Option Str) (ds : List Decl), (∀ d ∈ ds, DSame g S d) →
      memberDecls (g.ev a) tq tn val bit ds = memberDecls (g.ev b) tq tn val bit ds := by
    intro tq tn val bit ds
    induction ds with
    | nil => intro _; rfl
    | cons d ds ih =>
      intro hd
      simp only [memberDecls, procType_same (hd d (by simp)) hab, ih fun x hx => hd x (by simp [hx])]
  induction ms with
  | nil => rfl
  | cons m ms ih =>
    obtain ⟨h1, h2⟩ := h m (by simp)
    have hm : memberOf (g.ev a) m = memberOf (g.ev b) m := by
      obtain ⟨tq, tn, ds, v, bit⟩ := m
      simp only at h1 h2
      subst h1
      cases ds with
      | nil => rfl
      | cons d ds => exact hds _ _ _ _ _ h2
    simp only [membersOf, hm, ih fun x hx => h x (by simp [hx])]

/-! ### Definitions -/

theorem Spec.SameOn.tbl {s t : St} (h : SameOn S s t) : TAgree S (s.defs .values) (t.defs .values) := h.vals

theorem Spec.SameOn.has {s t : St} (h : SameOn S s t) {n : Str} (hn : S.tags n) {k : Kind} (hk : k = .structs ∨ k = .unions ∨ k = .enums) :
    dhas (s.defs k) n = dhas (t.defs k) n := by
  unfold dhas; rw [h.tags k hk n hn]

theorem Spec.SameOn.add {s t : St} (h : SameOn S s t) (k : Kind) (n : Str) (v : DefVal) : SameOn S (addDef s k n v) (addDef t k n v) where
  vals n' hn := by rw [defs_addDef, defs_addDef, h.vals n' hn]
  tags k' hk n' hn := by rw [defs_addDef, defs_addDef, h.tags k' hk n' hn]

theorem Spec.Keeps.refl (s : St) : Keeps S s s := fun _ _ _ => rfl
theorem Spec.Keeps.trans {a b c : St} (h : Keeps S a b) (h' : Keeps S b c) : Keeps S a c :=
  fun k n hn => (h' k n hn).trans (h k n hn)
theorem Spec.Keeps.add (s : St) (k : Kind) {n : Str} (hn : S.names n) (v : DefVal) : Keeps S s (addDef s k n v) := by
  intro k' n' hn'
  rw [defs_addDef, if_neg]
  rintro ⟨_, rfl⟩
  exact hn' hn

theorem Spec.SameEffect.refl (s t : St) : SameEffect s s t t := fun _ _ => .inl ⟨rfl, rfl⟩
theorem Spec.SameEffect.trans {a b c a' b' c' : St} (h : SameEffect a b a' b') (h' : SameEffect b c b' c') : SameEffect a c a' c' := by
  intro k n
  rcases h' k n with ⟨x, y⟩ | x
  · rcases h k n with ⟨u, v⟩ | u
    · exact .inl ⟨x.trans u, y.trans v⟩
    · exact .inr (x.trans (u.trans y.symm))
  · exact .inr x
theorem effect_add (s t : St) (k : Kind) (n : Str) (v : DefVal) : SameEffect s (addDef s k n v) t (addDef t k n v) := by
  intro k' n'
  rw [defs_addDef, defs_addDef]
  by_cases h : k = k' ∧ n = n'
  · right; rw [if_pos h, if_pos h]
  · left; rw [if_neg h, if_neg h]; exact ⟨rfl, rfl⟩

theorem anonName_same {pre : Str} {a b : Dict Str DefVal} (h : ∀ i, dhas a (pre ++ natDigits i) = dhas b (pre ++ natDigits i)) :
    anonName pre a = anonName pre b ∧ ∃ i, anonName pre a = pre ++ natDigits i := by
  obtain ⟨h1, i, _, e1, m1⟩ := C34_fresh pre a
  obtain ⟨h2, j, _, e2, m2⟩ := C34_fresh pre b
  have hij : i = j := by
    rcases Nat.lt_trichotomy i j with hlt | he | hlt
    · have := m2 i hlt
      rw [← h i, ← e1, h1] at this
      cases this
    · exact he
    · have := m1 j hlt
      rw [h j, ← e2, h2] at this
      cases this
  subst hij
  exact ⟨by rw [e1, e2], i, e1⟩

/-- From the tables `s` and `t`, which agree as far as the scope is concerned, the tokens `ts` lead to such tables `s'` and
`t'` with the same effect, changing names in the scope only. -/
structure Leads (S : Scope) (s t s' t' : St) (ts : List Tk) : Prop where
  agree : SameOn S s' t'
  keeps : Keeps S s s'
  effect : SameEffect s s' t t'
  ext : Ext s s'
  same : Flat ts → Ext s' s → s' = s ∧ t' = t

theorem Leads.refl {s t : St} (h : SameOn S s t) (ts : List Tk) : Leads S s t s t ts :=
  ⟨h, Keeps.refl _, SameEffect.refl _ _, Ext.refl _, fun _ _ => ⟨rfl, rfl⟩⟩

theorem Leads.seq {s t s1 t1 s2 t2 : St} {a b ts : List Tk} (h1 : Leads S s t s1 t1 a) (h2 : Leads S s1 t1 s2 t2 b)
    (hf : Flat ts → Flat a ∧ Flat b) : Leads S s t s2 t2 ts where
  agree := h2.agree
  keeps := h1.keeps.trans h2.keeps
  effect := h1.effect.trans h2.effect
  ext := h1.ext.trans h2.ext
  same := by
    intro hts hx
    obtain ⟨rfl, rfl⟩ := h1.same (hf hts).1 (h2.ext.trans hx)
    exact h2.same (hf hts).2 hx

theorem Leads.mono {s t s1 t1 : St} {a ts : List Tk} (h1 : Leads S s t s1 t1 a) (hf : Flat ts → Flat a) : Leads S s t s1 t1 ts :=
  ⟨h1.agree, h1.keeps, h1.effect, h1.ext, fun x => h1.same (hf x)⟩

/-- The tag `n` after the keyword `w` is in the scope. -/
def TagIn (S : Scope) (w n : Str) : Prop := S.tags n ∧ S.names n ∧ S.names (w ++ ' ' :: n)

/-- The name of a struct, union or enum, given or found, is in the scope, and the same with both tables. -/
theorem comp_name {s t : St} (h : SameOn S s t) {w : Str} {k : Kind} (hk : k = .structs ∨ k = .unions ∨ k = .enums)
    {name : Option Str} (hn : ∀ n, name = some n → TagIn S w n)
    (ha : name = none → ∀ i, TagIn S w (c%"anon_" ++ w ++ natDigits i)) :
    ∃ n, TagIn S w n ∧ name.getD (anonName (c%"anon_" ++ w) (s.defs k)) = n ∧
      name.getD (anonName (c%"anon_" ++ w) (t.defs k)) = n := by
  cases name with
  | some n => exact ⟨n, hn n rfl, rfl, rfl⟩
  | none =>
    obtain ⟨e, i, e'⟩ := anonName_same (pre := c%"anon_" ++ w) (a := s.defs k) (b := t.defs k)
      fun i => h.has (ha rfl i).1 hk
    exact ⟨_, by rw [e']; exact ha rfl i, rfl, e.symm⟩

theorem compKind_tag (u : Bool) : compKind u = .structs ∨ compKind u = .unions ∨ compKind u = .enums := by
  cases u
  · exact .inl rfl
  · exact .inr (.inl rfl)

theorem struct_out {s t s' : St} (h : SameOn S s t) {u : Bool} {name : Option Str} {ms : List MemberDecl}
    (hn : ∀ n, name = some n → TagIn S (compWord u) n)
    (ha : name = none → ∀ i, TagIn S (compWord u) (c%"anon_" ++ compWord u ++ natDigits i))
    (hm : MSame g S ms) {pk : Option Nat} {r : Str} (e : procStruct g.ev s u name ms pk = (s', some r)) (ts : List Tk)
    (hf : Flat ts → ms = []) :
    ∃ t', procStruct g.ev t u name ms pk = (t', some r) ∧ Leads S s t s' t' ts := by
  obtain ⟨n, hp, e1, e2⟩ := comp_name h (compKind_tag u) hn ha
  simp only [procStruct, e1, e2, evIn, ← h.has hp.1 (compKind_tag u), ← membersOf_same hm h.tbl] at e ⊢
  split at e
  · rename_i hc
    rw [if_pos hc]
    split at e
    · cases e
    · rename_i x hx
      simp only [Prod.mk.injEq, Option.some.injEq] at e
      obtain ⟨rfl, rfl⟩ := e
      refine ⟨_, rfl, (h.add _ _ _).add _ _ _, (Keeps.add _ _ hp.2.1 _).trans (Keeps.add _ _ hp.2.2 _),
        (effect_add _ _ _ _ _).trans (effect_add _ _ _ _ _), (ext_addDef _ _ _ _).trans (ext_addDef _ _ _ _), ?_⟩
      intro hfl hx'
      have := hx' (compKind u) n (ext_addDef _ _ _ _ _ _ (has_addDef ..))
      rcases hc with hc | hc
      · exact absurd (hf hfl) hc
      · rw [hc] at this; cases this
  · rename_i hc
    rw [if_neg hc]
    simp only [Prod.mk.injEq, Option.some.injEq] at e
    obtain ⟨rfl, rfl⟩ := e
    exact ⟨_, rfl, Leads.refl h _⟩

theorem enumLoop_out {ms : List (Str × Option Str)} : ∀ {s t s' : St} {i : PVal} {d : Dict Str PVal} {r : Except PyErr (Dict Str PVal)},
    SameOn S s t → (∀ m ∈ ms, S.names m.1 ∧ ∀ e, m.2 = some e → EvSame g S e) → enumLoop g.ev s i d ms = (s', r) →
    ∃ t', enumLoop g.ev t i d ms = (t', r) ∧ SameOn S s' t' ∧ Keeps S s s' ∧ SameEffect s s' t t' ∧ Ext s s' := by
  induction ms with
  | nil =>
    intro s t s' i d r h _ e
    simp only [enumLoop, Prod.mk.injEq] at e
    obtain ⟨rfl, rfl⟩ := e
    exact ⟨t, rfl, h, Keeps.refl _, SameEffect.refl _ _, Ext.refl _⟩
  | cons m ms ih =>
    intro s t s' i d r h hm e
    obtain ⟨n, v⟩ := m
    obtain ⟨hp, hv⟩ := hm (n, v) (by simp)
    have go : ∀ j : PVal, (match (motive := PVal → St × Except PyErr (Dict Str PVal)) j with
        | .int k => enumLoop g.ev (addDef s .values n (.value j)) (.int (k + 1)) (dset d n j) ms
        | .flt q => enumLoop g.ev (addDef s .values n (.value j)) (.flt (q + 1)) (dset d n j) ms
        | _ => (addDef s .values n (.value j), .error .typeError)) = (s', r) →
        ∃ t', (match (motive := PVal → St × Except PyErr (Dict Str PVal)) j with
        | .int k => enumLoop g.ev (addDef t .values n (.value j)) (.int (k + 1)) (dset d n j) ms
        | .flt q => enumLoop g.ev (addDef t .values n (.value j)) (.flt (q + 1)) (dset d n j) ms
        | _ => (addDef t .values n (.value j), .error .typeError)) = (t', r) ∧ SameOn S s' t' ∧ Keeps S s s' ∧ SameEffect s s' t t' ∧ Ext s s' := by
      intro j hj
      cases j with
      | int k =>
        obtain ⟨t', a, b, c, f, x⟩ := ih (h.add _ _ _) (fun m hm' => hm m (by simp [hm'])) hj
        exact ⟨t', a, b, (Keeps.add _ _ hp _).trans c, (effect_add _ _ _ _ _).trans f, (ext_addDef _ _ _ _).trans x⟩
      | flt q =>
        obtain ⟨t', a, b, c, f, x⟩ := ih (h.add _ _ _) (fun m hm' => hm m (by simp [hm'])) hj
        exact ⟨t', a, b, (Keeps.add _ _ hp _).trans c, (effect_add _ _ _ _ _).trans f, (ext_addDef _ _ _ _).trans x⟩
      | none =>
        simp only [Prod.mk.injEq] at hj; obtain ⟨rfl, rfl⟩ := hj
        exact ⟨_, rfl, h.add _ _ _, Keeps.add _ _ hp _, effect_add _ _ _ _ _, ext_addDef _ _ _ _⟩
      | str t =>
        simp only [Prod.mk.injEq] at hj; obtain ⟨rfl, rfl⟩ := hj
        exact ⟨_, rfl, h.add _ _ _, Keeps.add _ _ hp _, effect_add _ _ _ _ _, ext_addDef _ _ _ _⟩
      | list l =>
        simp only [Prod.mk.injEq] at hj; obtain ⟨rfl, rfl⟩ := hj
        exact ⟨_, rfl, h.add _ _ _, Keeps.add _ _ hp _, effect_add _ _ _ _ _, ext_addDef _ _ _ _⟩
      | other =>
        simp only [Prod.mk.injEq] at hj; obtain ⟨rfl, rfl⟩ := hj
        exact ⟨_, rfl, h.add _ _ _, Keeps.add _ _ hp _, effect_add _ _ _ _ _, ext_addDef _ _ _ _⟩
    cases v with
    | none => simp only [enumLoop] at e ⊢; exact go _ e
    | some x =>
      simp only [enumLoop, evIn, ← hv x rfl _ _ h.tbl] at e ⊢
      exact go _ e

theorem enum_out {s t s' : St} (h : SameOn S s t) {name : Option Str} {ms : List (Str × Option Str)}
    (hn : ∀ n, name = some n → TagIn S c%"enum" n)
    (ha : name = none → ∀ i, TagIn S c%"enum" (c%"anon_" ++ c%"enum" ++ natDigits i))
    (hm : ∀ m ∈ ms, S.names m.1 ∧ ∀ e, m.2 = some e → EvSame g S e) {r : Str} (e : procEnum g.ev s name ms = (s', some r))
    (ts : List Tk) :
    ∃ t', procEnum g.ev t name ms = (t', some r) ∧ Leads S s t s' t' ts := by
  obtain ⟨n, hp, e1, e2⟩ := comp_name h (k := .enums) (.inr (.inr rfl)) hn ha
  have e1' : name.getD (anonName c%"anon_enum" (s.defs .enums)) = n := e1
  have e2' : name.getD (anonName c%"anon_enum" (t.defs .enums)) = n := e2
  simp only [procEnum, e1', e2', ← h.has hp.1 (k := .enums) (.inr (.inr rfl))] at e ⊢
  split at e
  · rename_i hc
    rw [if_pos hc]
    simp only [Prod.mk.injEq, Option.some.injEq] at e
    obtain ⟨rfl, rfl⟩ := e
    exact ⟨_, rfl, Leads.refl h _⟩
  · rename_i hc
    rw [if_neg hc]
    split at e
    · cases e
    · rename_i s1 en hl
      obtain ⟨t1, a, b, c, f, x⟩ := enumLoop_out h hm hl
      simp only [Prod.mk.injEq, Option.some.injEq] at e
      obtain ⟨rfl, rfl⟩ := e
      rw [a]
      refine ⟨_, rfl, (b.add _ _ _).add _ _ _, c.trans ((Keeps.add _ _ hp.2.1 _).trans (Keeps.add _ _ hp.2.2 _)),
        f.trans ((effect_add _ _ _ _ _).trans (effect_add _ _ _ _ _)),
        x.trans ((ext_addDef _ _ _ _).trans (ext_addDef _ _ _ _)), ?_⟩
      intro _ hx
      exact absurd (hx .enums n (ext_addDef _ _ _ _ _ _ (has_addDef ..))) hc

theorem enums_same {ts : List Tk} {ms : List (Str × Option Str)} (h : Enumerators g ts ms) :
    Covers g S ts → ∀ m ∈ ms, S.names m.1 ∧ ∀ e, m.2 = some e → EvSame g S e := by
  have one : ∀ {ts : List Tk} {m : Str × Option Str}, Enumerator g ts m → Covers g S ts →
      S.names m.1 ∧ ∀ e, m.2 = some e → EvSame g S e := by
    intro ts m h hv
    cases h with
    | mk n v val h1 h2 =>
      refine ⟨hv.ident n (by simp) h1, ?_⟩
      intro e he
      cases h2 with
      | none => cases he
      | some eq b x h3 h4 =>
        simp only [Option.some.injEq] at he
        subst he
        exact hv.tail.tail.whole h4
  induction h with
  | one ts m h => intro hv x hx; rw [List.mem_singleton.1 hx]; exact one h hv
  | more ts m c ts' ms h h1 _ ih =>
    intro hv x hx
    rcases List.mem_cons.1 hx with rfl | hx
    · exact one h hv.left
    · exact ih hv.right.tail x hx

theorem tag_in {kw : Tk} {nm k : List Tk} {name : Option Str} (h : Tag g nm name) (hw : kw.w ∈ tagWords) (hv : Covers g S (kw :: (nm ++ k))) :
    ∀ n, name = some n → TagIn S kw.w n := by
  intro n e
  cases h with
  | none => cases e
  | some t ht =>
    simp only [Option.some.injEq] at e
    subst e
    obtain ⟨a, b⟩ := hv.tag [] kw t k rfl hw ht
    exact ⟨a, hv.ident t (by simp) ht, b⟩

theorem compWord_tagWords (u : Bool) : compWord u ∈ tagWords := by cases u <;> decide

theorem anon_in {kw l : Tk} {k : List Tk} (hw : kw.w ∈ tagWords) (hl : l.w = c%"{") (hv : Covers g S (kw :: l :: k)) (i : Nat) :
    TagIn S kw.w (c%"anon_" ++ kw.w ++ natDigits i) := hv.anon [] kw l k rfl hw hl i

/-! ### The syntax -/

mutual
theorem spec_out : {s s' : St} → {ts : List Tk} → {q : List Str × Str} → CSpec g s ts s' q → Covers g S ts →
    ∀ {t : St}, SameOn S s t → ∃ t', CSpec g t ts t' q ∧ Leads S s t s' t' ts
  | _, _, _, _, .mk s s' q ts m qs n h1 h2 h3 => fun hv t ha => by
    obtain ⟨t', a, b⟩ := name_out h2 hv.right.left ha
    exact ⟨t', .mk _ _ q ts m qs n h1 a h3, b.mono fun hf => hf.right.left⟩
theorem name_out : {s s' : St} → {ts : List Tk} → {n : Str} → CName g s ts s' n → Covers g S ts →
    ∀ {t : St}, SameOn S s t → ∃ t', CName g t ts t' n ∧ Leads S s t s' t' ts
  | _, _, _, _, .fund s u ts h1 => fun _ t ha => ⟨t, .fund _ u ts h1, Leads.refl ha _⟩
  | _, _, _, _, .ident s u h1 => fun _ t ha => ⟨t, .ident _ u h1, Leads.refl ha _⟩
  | _, _, _, _, .comp s s' u kw n r h1 h2 h3 => fun hv t ha => by
    obtain ⟨t', a, b⟩ := struct_out (ms := []) ha (h1 ▸ tag_in (k := []) (.some n h2) (h1 ▸ compWord_tagWords u) hv) (fun e => by cases e)
      (fun m hm => by cases hm) h3 [kw, n] (fun _ => rfl)
    exact ⟨t', .comp _ _ u kw n r h1 h2 a, b⟩
  | _, _, _, _, .compDef s s1 s2 u kw l rb nm body name ms r h1 h2 h3 h4 h5 h6 => fun hv t ha => by
    obtain ⟨t1, a, b⟩ := members_out h5 hv.tail.right.tail.left ha
    have hms := members_same h5 hv.tail.right.tail.left
    have hw : kw.w ∈ tagWords := h1 ▸ compWord_tagWords u
    obtain ⟨t2, c, d⟩ := struct_out b.agree (h1 ▸ tag_in h2 hw hv) (fun e i => by
      subst e
      cases h2
      exact h1 ▸ anon_in hw h3 hv i) hms h6 (kw :: (nm ++ l :: (body ++ [rb]))) (fun hf => absurd h3 (hf l (by simp)))
    exact ⟨t2, .compDef _ _ _ u kw l rb nm body name ms r h1 h2 h3 h4 a c,
      b.seq d fun hf => ⟨fun x hx => hf x (by simp [hx]), hf⟩⟩
  | _, _, _, _, .enum s s' kw n r h1 h2 h3 => fun hv t ha => by
    obtain ⟨t', a, b⟩ := enum_out (ms := []) ha (h1 ▸ tag_in (k := []) (.some n h2) (by rw [h1]; decide) hv) (fun e => by cases e)
      (fun m hm => by cases hm) h3 [kw, n]
    exact ⟨t', .enum _ _ kw n r h1 h2 a, b⟩
  | _, _, _, _, .enumDef s s' kw l rb nm body oc name ms r h1 h2 h3 h4 h5 h6 h7 => fun hv t ha => by
    have hw : kw.w ∈ tagWords := by rw [h1]; decide
    obtain ⟨t2, c, d⟩ := enum_out ha (h1 ▸ tag_in h2 hw hv) (fun e i => by
      subst e
      cases h2
      exact h1 ▸ anon_in hw h3 hv i)
      (enums_same h5 hv.tail.right.tail.left) h7 (kw :: (nm ++ l :: (body ++ (oc ++ [rb]))))
    exact ⟨t2, .enumDef _ _ kw l rb nm body oc name ms r h1 h2 h3 h4 h5 h6 c, d⟩
theorem members_same : {s s' : St} → {ts : List Tk} → {ms : List MemberDecl} → CMembers g s ts s' ms → Covers g S ts → MSame g S ms
  | _, _, _, _, .one s s' ts m h => fun hv x hx => by
    rw [List.mem_singleton.1 hx]; exact member_same h hv
  | _, _, _, _, .more s s1 s2 ts ts' m ms h1 h2 => fun hv x hx => by
    rcases List.mem_cons.1 hx with rfl | hx
    · exact member_same h1 hv.left
    · exact members_same h2 hv.right x hx
theorem member_same : {s s' : St} → {ts : List Tk} → {m : MemberDecl} → CMemberDecl g s ts s' m → Covers g S ts →
    m.value = none ∧ ∀ d ∈ m.decls, DSame g S d
  | _, _, _, _, .var s s1 s2 t d semi tq tn ds h1 h2 h3 h4 => fun hv => ⟨rfl, fun x hx => (decls_same h2 hv.right.left x hx).1⟩
  | _, _, _, _, .anon s s1 t semi tq tn h1 h2 => fun _ => ⟨rfl, fun x hx => nomatch hx⟩
  | _, _, _, _, .bit s t d col n semi tq tn ds v h1 h2 h3 h4 h5 h6 h7 => fun hv =>
    ⟨rfl, fun x hx => (decls_same h2 hv.right.left x hx).1⟩
  | _, _, _, _, .pad s t col n semi tq tn v h1 h2 h3 h4 h5 => fun _ => ⟨rfl, fun x hx => nomatch hx⟩
theorem members_out : {s s' : St} → {ts : List Tk} → {ms : List MemberDecl} → CMembers g s ts s' ms → Covers g S ts →
    ∀ {t : St}, SameOn S s t → ∃ t', CMembers g t ts t' ms ∧ Leads S s t s' t' ts
  | _, _, _, _, .one s s' ts m h => fun hv t ha => by
    obtain ⟨t', a, b⟩ := member_out h hv ha
    exact ⟨t', .one _ _ ts m a, b⟩
  | _, _, _, _, .more s s1 s2 ts ts' m ms h1 h2 => fun hv t ha => by
    obtain ⟨t1, a, b⟩ := member_out h1 hv.left ha
    obtain ⟨t2, c, d⟩ := members_out h2 hv.right b.agree
    exact ⟨t2, .more _ _ _ ts ts' m ms a c, b.seq d fun hf => ⟨hf.left, hf.right⟩⟩
theorem member_out : {s s' : St} → {ts : List Tk} → {m : MemberDecl} → CMemberDecl g s ts s' m → Covers g S ts →
    ∀ {t : St}, SameOn S s t → ∃ t', CMemberDecl g t ts t' m ∧ Leads S s t s' t' ts
  | _, _, _, _, .var s s1 s2 tk d semi tq tn ds h1 h2 h3 h4 => fun hv t ha => by
    obtain ⟨t1, a, b⟩ := spec_out h1 hv.left ha
    obtain ⟨t2, c, d'⟩ := decls_out h2 hv.right.left b.agree
    exact ⟨t2, .var _ _ _ tk d semi tq tn ds a c h3 h4, b.seq d' fun hf => ⟨hf.left, hf.right.left⟩⟩
  | _, _, _, _, .anon s s1 tk semi tq tn h1 h2 => fun hv t ha => by
    obtain ⟨t1, a, b⟩ := spec_out h1 hv.left ha
    exact ⟨t1, .anon _ _ tk semi tq tn a h2, b.mono Flat.left⟩
  | _, _, _, _, .bit s tk d col n semi tq tn ds v h1 h2 h3 h4 h5 h6 h7 => fun hv t ha => by
    obtain ⟨t1, a, b⟩ := spec_out h1 hv.left ha
    obtain ⟨_, rfl⟩ := b.same (fun u hu => h7 u (by simp [hu])) (Ext.refl _)
    obtain ⟨t2, c, d'⟩ := decls_out h2 hv.right.left ha
    obtain ⟨_, rfl⟩ := d'.same (fun u hu => h7 u (by simp [hu])) (Ext.refl _)
    exact ⟨_, .bit _ tk d col n semi tq tn ds v a c h3 h4 h5 h6 h7, Leads.refl ha _⟩
  | _, _, _, _, .pad s tk col n semi tq tn v h1 h2 h3 h4 h5 => fun hv t ha => by
    obtain ⟨t1, a, b⟩ := spec_out h1 hv.left ha
    obtain ⟨_, rfl⟩ := b.same h5 (Ext.refl _)
    exact ⟨_, .pad _ tk col n semi tq tn v a h2 h3 h4 h5, Leads.refl ha _⟩
theorem decls_out : {s s' : St} → {ts : List Tk} → {ds : List Decl} → CDecls g s ts s' ds → Covers g S ts →
    ∀ {t : St}, SameOn S s t → ∃ t', CDecls g t ts t' ds ∧ Leads S s t s' t' ts
  | _, _, _, _, .one s s' ts d h => fun hv t ha => by
    obtain ⟨t', a, b⟩ := declr_out h hv ha
    exact ⟨t', .one _ _ ts d a, b⟩
  | _, _, _, _, .more s s1 s2 ts ts' c d ds h1 h2 h3 => fun hv t ha => by
    obtain ⟨t1, a, b⟩ := declr_out h1 hv.left ha
    obtain ⟨t2, e, f⟩ := decls_out h3 hv.right.tail b.agree
    exact ⟨t2, .more _ _ _ ts ts' c d ds a h2 e, b.seq f fun hf => ⟨hf.left, fun u hu => hf u (by simp [hu])⟩⟩
theorem declr_out : {s s' : St} → {ts : List Tk} → {d : Decl} → CDeclr g s ts s' d → Covers g S ts →
    ∀ {t : St}, SameOn S s t → ∃ t', CDeclr g t ts t' d ∧ Leads S s t s' t' ts
  | _, _, _, _, .mk s s1 s2 q c p co ar a qs conv ps ref core h as es hq hn hc hp hj hco har har' => fun hv t ha => by
    obtain ⟨t1, x, y⟩ := core_out hco hv.right.right.right.left ha
    obtain ⟨t2, z, w⟩ := args_out har hv.right.right.right.right.left y.agree
    exact ⟨t2, .mk _ _ _ q c p co ar a qs conv ps ref core h as es hq hn hc hp hj x z har',
      y.seq w fun hf => ⟨hf.right.right.right.left, hf.right.right.right.right.left⟩⟩
theorem core_out : {s s' : St} → {ts : List Tk} → {ref : Bool} → {core : Core} → CCore g s ts s' ref core → Covers g S ts →
    ∀ {t : St}, SameOn S s t → ∃ t', CCore g t ts t' ref core ∧ Leads S s t s' t' ts
  | _, _, _, _, _, .name s a ref n h1 hn => fun _ t ha => ⟨t, .name _ a ref n h1 hn, Leads.refl ha _⟩
  | _, _, _, _, _, .center s s' l r ts d hl hr hd => fun hv t ha => by
    obtain ⟨t1, x, y⟩ := declr_out hd hv.tail.left ha
    exact ⟨t1, .center _ _ l r ts d hl hr x, y.mono fun hf u hu => hf u (by simp [hu])⟩
theorem args_out : {s s' : St} → {ts : List Tk} → {b : Bool} → {as : ArgList} → CArgs g s ts s' b as → Covers g S ts →
    ∀ {t : St}, SameOn S s t → ∃ t', CArgs g t ts t' b as ∧ Leads S s t s' t' ts
  | _, _, _, _, _, .none s => fun _ t ha => ⟨t, .none _, Leads.refl ha _⟩
  | _, _, _, _, _, .empty s l r h1 h2 => fun _ t ha => ⟨t, .empty _ l r h1 h2, Leads.refl ha _⟩
  | _, _, _, _, _, .list s s' l r ps as h1 h2 h3 => fun hv t ha => by
    obtain ⟨t1, x, y⟩ := params_out h3 hv.tail.left ha
    exact ⟨t1, .list _ _ l r ps as h1 h2 x, y.mono fun hf u hu => hf u (by simp [hu])⟩
theorem params_out : {s s' : St} → {ts : List Tk} → {as : ArgList} → CParams g s ts s' as → Covers g S ts →
    ∀ {t : St}, SameOn S s t → ∃ t', CParams g t ts t' as ∧ Leads S s t s' t' ts
  | _, _, _, _, .one s s' ts tq tn d val hp => fun hv t ha => by
    obtain ⟨t1, x, y⟩ := param_out hp hv ha
    exact ⟨t1, .one _ _ ts tq tn d val x, y⟩
  | _, _, _, _, .more s s1 s2 ts ts' c tq tn d val as hp hc hps => fun hv t ha => by
    obtain ⟨t1, x, y⟩ := param_out hp hv.left ha
    obtain ⟨t2, z, w⟩ := params_out hps hv.right.tail y.agree
    exact ⟨t2, .more _ _ _ ts ts' c tq tn d val as x hc z, y.seq w fun hf => ⟨hf.left, fun u hu => hf u (by simp [hu])⟩⟩
theorem param_out : {s s' : St} → {ts : List Tk} → {tq : List Str} → {tn : Str} → {d : Decl} → {val : Option Str} →
    CParam g s ts s' tq tn d val → Covers g S ts →
    ∀ {t : St}, SameOn S s t → ∃ t', CParam g t ts t' tq tn d val ∧ Leads S s t s' t' ts
  | _, _, _, _, _, _, _, .named s s1 s2 tk dk v tq tn d val h1 h2 h3 h4 => fun hv t ha => by
    obtain ⟨t1, x, y⟩ := spec_out h1 hv.left ha
    obtain ⟨t2, z, w⟩ := declr_out h2 hv.right.left y.agree
    exact ⟨t2, .named _ _ _ tk dk v tq tn d val x z h3 h4, y.seq w fun hf => ⟨hf.left, hf.right.left⟩⟩
  | _, _, _, _, _, _, _, .abs s s1 tk dk v tq tn d val h1 h2 h3 => fun hv t ha => by
    obtain ⟨t1, x, y⟩ := spec_out h1 hv.left ha
    exact ⟨t1, .abs _ _ tk dk v tq tn d val x h2 h3, y.mono Flat.left⟩
end

/-! ### Declarations at file level -/

theorem varLoop_out {tq : List Str} {tn : Str} {val : PVal} {ds : List Decl} : ∀ {s t : St}, SameOn S s t →
    (∀ d ∈ ds, DSame g S d ∧ DNamed g S d) →
    SameOn S (varLoop g.ev tq tn val s ds).1 (varLoop g.ev tq tn val t ds).1 ∧ Keeps S s (varLoop g.ev tq tn val s ds).1 ∧
    SameEffect s (varLoop g.ev tq tn val s ds).1 t (varLoop g.ev tq tn val t ds).1 := by
  induction ds with
  | nil => intro s t h _; exact ⟨h, Keeps.refl _, SameEffect.refl _ _⟩
  | cons d ds ih =>
    intro s t h hd
    obtain ⟨h1, h2⟩ := hd d (by simp)
    have ih' := fun {s t} (h : SameOn S s t) => ih h fun x hx => hd x (by simp [hx])
    simp only [varLoop, evIn, ← procType_same h1 h.tbl]
    split
    · exact ⟨h, Keeps.refl _, SameEffect.refl _ _⟩
    · rename_i n ty hp
      have hn := procType_named h2 hp
      split
      · split
        · exact ⟨h, Keeps.refl _, SameEffect.refl _ _⟩
        · have := ih' (h.add .functions (nameOr n) (.func (by assumption)))
          exact ⟨this.1, (Keeps.add _ _ hn _).trans this.2.1, (effect_add _ _ _ _ _).trans this.2.2⟩
      · have := ih' ((h.add .variables (nameOr n) (.var val ty)).add .values (nameOr n) (.value val))
        exact ⟨this.1, ((Keeps.add _ _ hn _).trans (Keeps.add _ _ hn _)).trans this.2.1,
          ((effect_add _ _ _ _ _).trans (effect_add _ _ _ _ _)).trans this.2.2⟩

theorem typedefLoop_out {tq : List Str} {tn : Str} {ds : List Decl} : ∀ {s t s' : St}, SameOn S s t →
    (∀ d ∈ ds, DSame g S d ∧ DNamed g S d) → typedefLoop g.ev tq tn s ds = (s', none) →
    ∃ t', typedefLoop g.ev tq tn t ds = (t', none) ∧ SameOn S s' t' ∧ Keeps S s s' ∧ SameEffect s s' t t' := by
  induction ds with
  | nil => intro s t s' h _ e; cases e; exact ⟨t, rfl, h, Keeps.refl _, SameEffect.refl _ _⟩
  | cons d ds ih =>
    intro s t s' h hd e
    obtain ⟨h1, h2⟩ := hd d (by simp)
    simp only [typedefLoop, evIn, ← procType_same h1 h.tbl] at e ⊢
    split at e
    · cases e
    · rename_i n ty hp
      obtain ⟨t', a, b, c, x⟩ := ih (h.add _ _ _) (fun x hx => hd x (by simp [hx])) e
      exact ⟨t', a, b, (Keeps.add _ _ (procType_named h2 hp) _).trans c, (effect_add _ _ _ _ _).trans x⟩

theorem exprs_same {ts : List Tk} {es : List Str} (h : Exprs g ts es) : Covers g S ts → ∀ e ∈ es, EvSame g S e := by
  induction h with
  | one e x h => intro hv y hy; rw [List.mem_singleton.1 hy]; exact hv.whole h
  | more e x c ts xs h1 h2 _ ih =>
    intro hv y hy
    rcases List.mem_cons.1 hy with rfl | hy
    · exact hv.left.whole h1
    · exact ih hv.right.tail y hy

theorem initVal_same {ts : List Tk} {ini : Init} (h : CInit g ts ini) (hv : Covers g S ts) {a b : Dict Str DefVal} (hab : TAgree S a b) :
    initVal (g.ev a) ini = initVal (g.ev b) ini := by
  cases h with
  | none => rfl
  | value eq e x h1 h2 => exact hv.tail.whole h2 a b hab
  | values eq l r ts xs h1 h2 h3 h4 =>
    have he := fun e hx => exprs_same h4 hv.tail.tail.left e hx a b hab
    have h5 : xs.map (fun e => (g.ev a e).dim) = xs.map (fun e => (g.ev b e).dim) :=
      List.map_congr_left fun e hx => by rw [he e hx]
    have h6 : xs.any (fun e => decide (g.ev a e = .none)) = xs.any (fun e => decide (g.ev b e = .none)) := by
      clear h4 h5
      induction xs with
      | nil => rfl
      | cons x xs ih => simp only [List.any_cons, he x (by simp), ih fun e hx => he e (by simp [hx])]
    simp only [initVal, h5, h6]

theorem top_out {s s' : St} {ts : List Tk} (h : CTop g s ts s') (hv : Covers g S ts) {t : St} (ha : SameOn S s t) :
    ∃ t', CTop g t ts t' ∧ SameOn S s' t' ∧ Keeps S s s' ∧ SameEffect s s' t t' := by
  cases h with
  | typedef s1 s2 _ kw semi tk d tq tn ds h1 h2 h3 h4 h5 h6 =>
    obtain ⟨t1, a, b⟩ := spec_out h2 hv.tail.left ha
    obtain ⟨t2, c, e⟩ := decls_out h3 hv.tail.right.left b.agree
    obtain ⟨t3, f, x, y, z⟩ := typedefLoop_out e.agree (decls_same h3 hv.tail.right.left) h5
    exact ⟨t3, .typedef _ _ _ _ kw semi tk d tq tn ds h1 a c h4 f h6, x, (b.keeps.trans e.keeps).trans y,
      (b.effect.trans e.effect).trans z⟩
  | var s1 s2 st tk d i semi tq tn ds ini h1 h2 h3 h4 h5 h6 =>
    obtain ⟨t1, a, b⟩ := spec_out h2 hv.right.left ha
    obtain ⟨t2, c, e⟩ := decls_out h3 hv.right.right.left b.agree
    have hi := initVal_same h4 hv.right.right.right.left e.agree.tbl
    have := varLoop_out (tq := tq) (tn := tn) (val := initVal (evIn g.ev s2) ini) e.agree (decls_same h3 hv.right.right.left)
    refine ⟨_, .var _ _ _ st tk d i semi tq tn ds ini h1 a c h4 h5 h6, ?_, (b.keeps.trans e.keeps).trans this.2.1, (b.effect.trans e.effect).trans ?_⟩
    all_goals have hi' : initVal (evIn g.ev s2) ini = initVal (evIn g.ev t2) ini := hi
    · simp only [procVariable, ← hi']
      exact this.1
    · simp only [procVariable, ← hi']
      exact this.2.2
  | type s1 st tk semi tq tn h1 h2 h3 =>
    obtain ⟨t1, a, b⟩ := spec_out h2 hv.right.left ha
    exact ⟨t1, .type _ _ st tk semi tq tn h1 a h3, b.agree, b.keeps, b.effect⟩
  | func s1 s2 st tk d b l r tq tn d' h1 h2 h3 h4 h5 h6 h7 h8 =>
    obtain ⟨t1, a, x⟩ := spec_out h2 hv.right.left ha
    obtain ⟨t2, c, e⟩ := declr_out h3 hv.right.right.left x.agree
    obtain ⟨f1, f2⟩ := declr_same h3 hv.right.right.left
    have key : SameOn S (procFunction g.ev s2 tq tn d') (procFunction g.ev t2 tq tn d') ∧ Keeps S s2 (procFunction g.ev s2 tq tn d') ∧
        SameEffect s2 (procFunction g.ev s2 tq tn d') t2 (procFunction g.ev t2 tq tn d') := by
      simp only [procFunction, evIn, ← procType_same f1 e.agree.tbl]
      split
      · exact ⟨e.agree, Keeps.refl _, SameEffect.refl _ _⟩
      · rename_i n ty hp
        split
        · split
          · exact ⟨e.agree, Keeps.refl _, SameEffect.refl _ _⟩
          · exact ⟨e.agree.add _ _ _, Keeps.add _ _ (procType_named f2 hp) _, effect_add _ _ _ _ _⟩
        · exact ⟨e.agree, Keeps.refl _, SameEffect.refl _ _⟩
    exact ⟨_, .func _ _ _ st tk d b l r tq tn d' h1 a c h4 h5 h6 h7 h8, key.1, (x.keeps.trans e.keeps).trans key.2.1,
      (x.effect.trans e.effect).trans key.2.2⟩

theorem header_out {s s' : St} {ts : List Tk} (h : CHeader g s ts s') : Covers g S ts → ∀ {t : St}, SameOn S s t →
    ∃ t', CHeader g t ts t' ∧ SameOn S s' t' ∧ Keeps S s s' ∧ SameEffect s s' t t' := by
  induction h with
  | nil s => intro _ t ha; exact ⟨t, .nil _, ha, Keeps.refl _, SameEffect.refl _ _⟩
  | stray s s' u ts h1 _ ih =>
    intro hv t ha
    obtain ⟨t', a, b⟩ := ih hv.tail ha
    exact ⟨t', .stray _ _ u ts h1 a, b⟩
  | linkage s s' e l ts h1 h2 h3 _ ih =>
    intro hv t ha
    obtain ⟨t', a, b⟩ := ih hv.tail.tail ha
    exact ⟨t', .linkage _ _ e l ts h1 h2 h3 a, b⟩
  | cons s s1 s2 ts ts' h1 _ ih =>
    intro hv t ha
    obtain ⟨t1, a, b, c, x⟩ := top_out h1 hv.left ha
    obtain ⟨t2, d, e, f, y⟩ := ih hv.right b
    exact ⟨t2, .cons _ _ _ ts ts' a d, e, c.trans f, x.trans y⟩

end

end Pyclib
