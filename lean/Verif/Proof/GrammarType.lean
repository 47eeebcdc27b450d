import Verif.Proof.GrammarDecl
/-
Proof that the parser reads types, struct and union bodies and enums, and with them declarators of any
depth (`gram_reads`).
-/
namespace Pyclib

open Spec

attribute [local irreducible] exprP exprN

theorem decl_ne {g : Gram} {s s' : St} {ts : List Tk} {d : Decl} (h : CDeclr g s ts s' d) : 1 ≤ ts.length := by
  cases h with
  | mk _ s1 _ q c p co ar a qs conv ps ref core b as es hq hnm hc hp hj hco har ha =>
    obtain ⟨t, co', rfl, ht⟩ := core_start hco
    simp only [List.length_append, List.length_cons]
    omega

theorem type_ne {g : Gram} (hg : gramOk g = true) {s s' : St} {ts : List Tk} {q : List Str × Str}
    (h : CSpec g s ts s' q) : 1 ≤ ts.length := by
  obtain ⟨t, ts', rfl, _⟩ := type_start hg h
  simp

/-- Declarators separated by commas are read. -/
theorem decls_read {g : Gram} {doc : Doc} {rc : Rec} {m : Nat} (hr : RecReads g doc rc m) {t : Tk} {k : List Tk}
    (ht : t.hd ∈ [';', '=', ':']) (N : Nat) : ∀ {s s' : St} {ts : List Tk} {ds : List Decl} {x : Pos},
    CDecls g s ts s' ds → ts.length ≤ N → ts.length ≤ m → At doc x (ts ++ t :: k) →
    SepReads rc.decl s x s' (advs x ts) ds := by
  induction N with
  | zero =>
    intro s s' ts ds x hp hN
    cases hp with
    | one _ _ _ d hd =>
      have := decl_ne hd
      omega
    | more _ s1 _ ts ts' c => simp at hN
  | succ N ih =>
    intro s s' ts ds x hp hN hm h
    cases hp with
    | one _ _ _ d hd =>
      have h1 := hr.decl s s' ts _ d x hd hm h (by
        revert ht; show _ → _ ∈ _; generalize t.hd = c; revert c; decide)
      exact .one _ _ _ _ _ h1 (lit_no (At.drop ts h) (hd_ne ht))
    | more _ s1 _ ts ts' c d ds hd hc hds =>
      simp only [List.append_assoc] at h
      simp only [List.length_append, List.length_cons] at hN hm
      have h1 := hr.decl s s1 ts _ d x hd (by omega) h (by simp [AfterDecl, hd_of hc])
      have h2 := At.drop ts h
      have h3 := lit_yes h2 hc
      have h4 := At.adv_length h2
      have h5 := At.advs_length ts h
      have h6 := ih hds (by omega) (by omega) (At.tail h2)
      refine .more _ s1 _ _ _ _ _ _ _ h1 h3 (by omega) (by omega) ?_
      simpa [advs_append, advs] using h6

theorem decls_start {g : Gram} (hg : gramOk g = true) {s s' : St} {ts k : List Tk} {ds : List Decl}
    (h : CDecls g s ts s' ds) (hk : k ≠ []) : AfterType g (ts ++ k) ∧ 1 ≤ ts.length := by
  cases h with
  | one _ _ _ d hd => exact ⟨afterType_decl hg hd hk, decl_ne hd⟩
  | more _ s1 _ ts ts' c d ds hd hc hds =>
    have := decl_ne hd
    refine ⟨?_, by simp; omega⟩
    have := afterType_decl hg hd (k := c :: (ts' ++ k)) (by simp)
    simpa using this

theorem joins_decls {g : Gram} (hg : gramOk g = true) {s s' : St} {t ts k : List Tk} {ds : List Decl}
    (h : CDecls g s ts s' ds) (hj : Joins g t ts) : Joins g t (ts ++ k) :=
  joins_left hj (by have := (decls_start (k := [⟨[], none⟩]) hg h (by simp)).2; intro e; rw [e] at this; simp at this)

theorem abs_nil (g : Gram) : CAbs g [] (.mk [] none [] false .abs false .nil []) :=
  .mk [] [] [] [] [] [] false [] .nil (by intro t ht; cases ht) .nil .no .nil

/-- No declarator begins at a closing token. -/
theorem decls_no {g : Gram} {doc : Doc} {rc : Rec} {m : Nat} (hr : RecReads g doc rc m) {t : Tk} {k : List Tk}
    (ht : t.hd ∈ [',', ')', ';', '=', ':', '}']) (s : St) {x : Pos} (h : At doc x (t :: k)) :
    rc.decl s x = (s, none) ∧ delimitedS rc.decl s x = (s, none) := by
  have h1 := hr.declNo s [] (t :: k) _ x (abs_nil g) h ht
  exact ⟨h1, by simp only [delimitedS, h1]⟩

/-! ### Members -/

theorem storageP_type {g : Gram} (hg : gramOk g = true) {s s' : St} {ts k : List Tk} {q : List Str × Str}
    (h : CSpec g s ts s' q) (hk : k ≠ []) {doc : Doc} {x : Pos} (hx : At doc x (ts ++ k)) : storageP x = x := by
  obtain ⟨t, ts', rfl, hw, hn, _⟩ := type_start hg h
  simp only [storageP, kwl_word hx (by simp [hk]) hw, if_neg hn]

theorem initP_no {g : Gram} {doc : Doc} {x : Pos} {t : Tk} {k : List Tk} (h : At doc x (t :: k)) (ht : t.hd ≠ '=') :
    initP g.cfg x = (.none, x) := by
  unfold initP
  rw [lit_no h ht]

theorem semi_hd {t : Tk} (h : t.w = c%";") : t.hd = ';' := hd_of h

/-- The member of a struct is read. -/
theorem memberP_read {g : Gram} (hg : gramOk g = true) {doc : Doc} {rc : Rec} {m : Nat} (hr : RecReads g doc rc m)
    {s s' : St} {ts k : List Tk} {md : MemberDecl} {x : Pos} (hmd : CMemberDecl g s ts s' md) (hm : ts.length ≤ m)
    (h : At doc x (ts ++ k)) : memberP g rc s x = (s', some (some md, advs x ts)) := by
  cases hmd with
  | var _ s1 _ t d semi tq tn ds ht hd hs hj =>
    simp only [List.append_assoc, List.cons_append, List.nil_append] at h
    simp only [List.length_append, List.length_cons] at hm
    have a0 := storageP_type hg ht (by simp) h
    have a1 := hr.type s s1 t _ _ x ht (by omega) h (decls_start hg hd (by simp)).1 (joins_decls hg hd hj)
    have h1 := At.drop t h
    have a2 := delimitedS_read (decls_read hr (by simp [hd_of hs]) d.length hd (Nat.le_refl _) (by omega) h1)
    have h2 := At.drop d h1
    have a3 := initP_no (g := g) h2 (by rw [hd_of hs]; decide)
    have a4 := delim_yes h2 hs (by decide)
    simp only [memberP, varP, a0, a1, a2, Option.getD_some, a3, a4, VarDecl.member]
    simp [advs_append, advs]
  | anon _ s1 t semi tq tn ht hs =>
    simp only [List.append_assoc, List.cons_append, List.nil_append] at h
    simp only [List.length_append, List.length_cons] at hm
    have a0 := storageP_type hg ht (by simp) h
    have a1 := hr.type s s' t _ _ x ht (by omega) h (afterType_sym (by rw [hd_of hs]; decide)) (joins_hd (by rw [hd_of hs]; decide))
    have h1 := At.drop t h
    have a2 := (decls_no hr (by rw [hd_of hs]; decide) s' h1).2
    have a3 := initP_no (g := g) h1 (by rw [hd_of hs]; decide)
    have a4 := delim_yes h1 hs (by decide)
    simp only [memberP, varP, a0, a1, a2, Option.getD_none, a3, a4, VarDecl.member]
    simp [advs_append, advs]
  | bit _ t d col n semi tq tn ds v ht hd hc hn hs hj _ =>
    simp only [List.append_assoc, List.cons_append, List.nil_append] at h
    simp only [List.length_append, List.length_cons] at hm
    have a0 := storageP_type hg ht (by simp) h
    have a1 := hr.type s s t _ _ x ht (by omega) h (decls_start hg hd (by simp)).1 (joins_decls hg hd hj)
    have h1 := At.drop t h
    have a2 := delimitedS_read (decls_read hr (by simp [hd_of hc]) d.length hd (Nat.le_refl _) (by omega) h1)
    have h2 := At.drop d h1
    have a3 := initP_no (g := g) h2 (by rw [hd_of hc]; decide)
    have a4 : delim ';' (advs (advs x t) d) = none := delim_no h2 (by rw [hd_of hc]; decide) (by rw [hd_of hc]; decide)
    have a5 := delim_yes h2 hc (by decide)
    have h3 := At.tail h2
    have a6 := integerP_read h3 (by simp) hn
    have h4 := At.tail h3
    have a7 := delim_yes h4 hs (by decide)
    simp only [memberP, varP, bitP, optDecls, a0, a1, a2, Option.getD_some, a3, a4, a5, Option.bind_some, a6, a7]
    simp [advs_append, advs]
  | pad _ t col n semi tq tn v ht hc hn hs _ =>
    simp only [List.append_assoc, List.cons_append, List.nil_append] at h
    simp only [List.length_append, List.length_cons] at hm
    have a0 := storageP_type hg ht (by simp) h
    have a1 := hr.type s s t _ _ x ht (by omega) h (afterType_sym (by rw [hd_of hc]; decide)) (joins_hd (by rw [hd_of hc]; decide))
    have h2 := At.drop t h
    have a2 := (decls_no hr (by rw [hd_of hc]; decide) s h2).2
    have a3 := initP_no (g := g) h2 (by rw [hd_of hc]; decide)
    have a4 : delim ';' (advs x t) = none := delim_no h2 (by rw [hd_of hc]; decide) (by rw [hd_of hc]; decide)
    have a5 := delim_yes h2 hc (by decide)
    have h3 := At.tail h2
    have a6 := integerP_read h3 (by simp) hn
    have h4 := At.tail h3
    have a7 := delim_yes h4 hs (by decide)
    simp only [memberP, varP, bitP, optDecls, a0, a1, a2, Option.getD_none, a3, a4, a5, Option.bind_some, a6, a7]
    simp [advs_append, advs]

theorem member_ne {g : Gram} {s s' : St} {ts : List Tk} {md : MemberDecl} (h : CMemberDecl g s ts s' md) :
    1 ≤ ts.length := by
  cases h <;> simp <;> omega

theorem storageP_sym {doc : Doc} {x : Pos} {t : Tk} {k : List Tk} (h : At doc x (t :: k)) (ht : symOk t = true) :
    storageP x = x := by
  simp only [storageP, kwl_sym h ht storageWords (by decide)]

/-- No member begins at the closing brace. -/
theorem memberP_no {g : Gram} {doc : Doc} {rc : Rec} {m : Nat} (hr : RecReads g doc rc m) {t : Tk} {k : List Tk}
    (ht : t.w = c%"}") (s : St) {x : Pos} (h : At doc x (t :: k)) : memberP g rc s x = (s, none) := by
  have a0 := storageP_sym h (symOk_of ht (by decide))
  have a1 := hr.typeNo s t k x h (symOk_of ht (by decide))
  have a2 := (decls_no hr (by rw [hd_of ht]; decide) s h).1
  simp only [memberP, varP, bitP, typedMethodP, methodP, a0, a1, a2]

theorem members_read {g : Gram} (hg : gramOk g = true) {doc : Doc} {rc : Rec} {m : Nat} (hr : RecReads g doc rc m)
    {rb : Tk} {k : List Tk} (hrb : rb.w = c%"}") (N : Nat) :
    ∀ {s s' : St} {ts : List Tk} {ms : List MemberDecl} {x : Pos}, CMembers g s ts s' ms → ts.length ≤ N →
      ts.length ≤ m → At doc x (ts ++ rb :: k) →
      ∃ s1 md y ms', ms = md :: ms' ∧ memberP g rc s x = (s1, some (some md, y)) ∧
        y.rest.length < x.rest.length ∧ ∀ n, y.rest.length ≤ n → memberLoop g rc n s1 y = (s', (ms', advs x ts)) := by
  induction N with
  | zero =>
    intro s s' ts ms x hp hN
    cases hp with
    | one _ _ _ md hd =>
      have := member_ne hd
      omega
    | more _ s1 _ ts ts' md ms hd =>
      have := member_ne hd
      simp only [List.length_append] at hN
      omega
  | succ N ih =>
    intro s s' ts ms x hp hN hm h
    cases hp with
    | one _ _ _ md hd =>
      have h1 := memberP_read hg hr hd hm h
      have hne := member_ne hd
      have hl := At.advs_length ts h
      refine ⟨s', md, _, [], rfl, h1, by omega, fun n _ => ?_⟩
      cases n with
      | zero => rfl
      | succ n => simp only [memberLoop, memberP_no hr hrb s' (At.drop ts h)]
    | more _ s1 _ ts ts' md ms hd hms =>
      have hne := member_ne hd
      simp only [List.append_assoc] at h
      simp only [List.length_append] at hN hm
      have h1 := memberP_read hg hr hd (by omega) h
      have h2 := At.drop ts h
      obtain ⟨s2, md', y', ms', rfl, h3, h4, h5⟩ := ih hms (by omega) (by omega) h2
      have hl := At.advs_length ts h
      refine ⟨s1, md, _, md' :: ms', rfl, h1, by omega, fun n hn => ?_⟩
      obtain ⟨n, rfl⟩ : ∃ j, n = j + 1 := ⟨n - 1, by omega⟩
      have h6 := h5 n (by omega)
      simp only [memberLoop, h3, h6, advs_append, Option.toList_some, List.cons_append, List.nil_append]

/-- The body of a struct is read. -/
theorem bodyP_read {g : Gram} (hg : gramOk g = true) {doc : Doc} {rc : Rec} {m : Nat} (hr : RecReads g doc rc m)
    {l rb : Tk} {s s' : St} {ts k : List Tk} {ms : List MemberDecl} {x : Pos} (hl : l.w = c%"{") (hrb : rb.w = c%"}")
    (hms : CMembers g s ts s' ms) (hm : ts.length ≤ m) (h : At doc x (l :: (ts ++ rb :: k))) :
    bodyP g rc s x = (s', some (ms, adv (advs (adv x l) ts) rb)) := by
  have h1 := At.tail h
  obtain ⟨s1, md, y, ms', rfl, h2, _, h3⟩ := members_read hg hr hrb ts.length hms (Nat.le_refl _) hm h1
  have h4 := h3 _ (Nat.le_succ _)
  have h5 := At.drop ts h1
  simp only [bodyP, delim_yes h hl (by decide), h2, h4, delim_yes h5 hrb (by decide), Option.map_some,
    Option.toList_some, List.cons_append, List.nil_append]

/-! ### Structs, unions and enums -/

theorem kw_word_of (u : Bool) : wordOk (compWord u) = true := by cases u <;> decide

theorem structKw_read {doc : Doc} {x : Pos} {kw : Tk} {k : List Tk} (h : At doc x (kw :: k)) (hk : k ≠ [])
    {u : Bool} (hu : kw.w = compWord u) : structKw x = some (u, adv x kw) := by
  have hw : wordOk kw.w = true := hu ▸ kw_word_of u
  have h1 : c%"union" ≠ c%"struct" := by decide
  cases u with
  | false => simp only [structKw, keyword_word h hk hw, hu, compWord, Bool.false_eq_true, if_false, if_true]
  | true => simp only [structKw, keyword_word h hk hw, hu, compWord, if_true, if_neg h1, Option.map_some]

theorem structKw_enum {doc : Doc} {x : Pos} {kw : Tk} {k : List Tk} (h : At doc x (kw :: k)) (hk : k ≠ [])
    (hu : kw.w = c%"enum") : structKw x = none := by
  have hw : wordOk kw.w = true := by rw [hu]; decide
  have h1 : c%"enum" ≠ c%"struct" := by decide
  have h2 : c%"enum" ≠ c%"union" := by decide
  simp only [structKw, keyword_word h hk hw, hu, if_neg h1, if_neg h2, Option.map_none]

theorem structKw_sym {doc : Doc} {x : Pos} {t : Tk} {k : List Tk} (h : At doc x (t :: k)) (ht : symOk t = true) :
    structKw x = none := by
  simp only [structKw, keyword_sym h ht c%"struct" (by decide), keyword_sym h ht c%"union" (by decide),
    Option.map_none]

theorem optIdent_tag {g : Gram} {doc : Doc} {x : Pos} {nm k : List Tk} {name : Option Str} (hn : Tag g nm name)
    {l : Tk} (hl : l.w = c%"{") (h : At doc x (nm ++ l :: k)) : optIdent g.cfg x = (name, advs x nm) := by
  cases hn with
  | none =>
    have h1 : At doc x (l :: k) := h
    simp only [optIdent, identP_sym h1 (symOk_of hl (by decide))]
    rfl
  | some t ht =>
    have h1 : At doc x (t :: l :: k) := h
    simp only [optIdent, identP_ident h1 (by simp) ht]
    rfl

theorem bodyP_no {g : Gram} {doc : Doc} {rc : Rec} {x : Pos} {k : List Tk} (h : At doc x k) (hk : AfterName g k)
    (s : St) : bodyP g rc s x = (s, none) := by
  cases k with
  | nil => exact absurd hk (by simp [AfterName])
  | cons t k =>
    obtain ⟨h1, h2, h3, _⟩ := hk
    simp only [bodyP, delim_no h h1 ⟨h2, h3⟩]

theorem enumBodyP_no {g : Gram} {doc : Doc} {x : Pos} {k : List Tk} (h : At doc x k) (hk : AfterName g k) :
    enumBodyP g.cfg x = none := by
  cases k with
  | nil => exact absurd hk (by simp [AfterName])
  | cons t k =>
    obtain ⟨h1, h2, h3, _⟩ := hk
    simp only [enumBodyP, delim_no h h1 ⟨h2, h3⟩, Option.bind_none]

/-- An enumerator is read. -/
theorem enumeratorP_read {g : Gram} {doc : Doc} {x : Pos} {ts k : List Tk} {e : Str × Option Str}
    (he : Enumerator g ts e) {t : Tk} {k' : List Tk} (ek : k = t :: k') (ht : t.hd ∈ [',', '}'])
    (h : At doc x (ts ++ k)) : enumeratorP g.cfg x = some (e, advs x ts) := by
  cases he with
  | mk n v val hn hv =>
    have h1 := At.tail h
    obtain ⟨h2, h3⟩ := default_read hv h1 ek (by revert ht; generalize t.hd = c; revert c; decide)
    have h4 := identP_ident (g := g) h (by simp [ek]) hn
    simp only [enumeratorP, h4]
    rw [h2]
    cases val with
    | none => rw [h3 rfl]; rfl
    | some e => rfl

theorem enumerator_ne {g : Gram} {ts : List Tk} {e : Str × Option Str} (he : Enumerator g ts e) : 1 ≤ ts.length := by
  cases he
  simp

/-- The enumerators of an enum are read up to the closing brace or the comma before it. -/
theorem enumerators_read {g : Gram} {doc : Doc} {t : Tk} {k : List Tk} (ht : t.hd ∈ [',', '}'])
    (hstop : ∀ y, At doc y (t :: k) → (lit ',' y).bind (enumeratorP g.cfg) = none) {ts : List Tk}
    {es : List (Str × Option Str)} (he : Enumerators g ts es) :
    ∀ x, At doc x (ts ++ t :: k) → ∃ e es' y, es = e :: es' ∧ enumeratorP g.cfg x = some (e, y) ∧
      y.rest.length < x.rest.length ∧
      ∀ n, y.rest.length ≤ n → commaLoop (enumeratorP g.cfg) n y = (es', advs x ts) := by
  induction he with
  | one ts e he =>
    intro x h
    have h1 := enumeratorP_read he rfl ht h
    have h2 := At.advs_length ts h
    have h3 := enumerator_ne he
    refine ⟨e, [], _, rfl, h1, by omega, fun n _ => ?_⟩
    cases n with
    | zero => rfl
    | succ n =>
      have h4 := hstop _ (At.drop ts h)
      simp only [commaLoop]
      cases h5 : lit ',' (advs x ts) with
      | none => rfl
      | some y =>
        rw [h5] at h4
        simp only [Option.bind_some] at h4
        simp only [h4]
  | more ts e c ts' es he hc _ ih =>
    intro x h
    simp only [List.append_assoc] at h
    have h1 := enumeratorP_read he rfl (by simp [hd_of hc]) h
    have h2 := At.drop ts h
    have h3 := At.tail h2
    obtain ⟨e', es', y, rfl, h4, h5, h6⟩ := ih _ h3
    have h7 := At.advs_length ts h
    have h8 := At.adv_length h2
    have h9 := enumerator_ne he
    refine ⟨e, e' :: es', _, rfl, h1, by omega, fun n hn => ?_⟩
    obtain ⟨n, rfl⟩ : ∃ j, n = j + 1 := ⟨n - 1, by omega⟩
    have h10 := h6 n (by omega)
    simp only [commaLoop, lit_yes h2 hc, h4, h10]
    simp [advs_append, advs]

/-- The body of an enum is read. -/
theorem enumBodyP_read {g : Gram} {doc : Doc} {x : Pos} {l rb : Tk} {body oc k : List Tk}
    {es : List (Str × Option Str)} (hl : l.w = c%"{") (hrb : rb.w = c%"}") (he : Enumerators g body es)
    (hoc : OptComma oc) (h : At doc x (l :: (body ++ (oc ++ rb :: k)))) :
    enumBodyP g.cfg x = some (es, adv (advs (advs (adv x l) body) oc) rb) := by
  have h1 := At.tail h
  have h2 := At.drop body h1
  have hdel : ∀ (e : Str × Option Str) (es' : List (Str × Option Str)) (y : Pos), es = e :: es' →
      enumeratorP g.cfg (adv x l) = some (e, y) →
      (∀ n, y.rest.length ≤ n → commaLoop (enumeratorP g.cfg) n y = (es', advs (adv x l) body)) →
      delimited (enumeratorP g.cfg) (adv x l) = some (es, advs (adv x l) body) := by
    intro e es' y e1 e2 e3
    simp only [delimited, e2, e3 _ (Nat.le_refl _), e1]
  cases hoc with
  | no =>
    have h3 : At doc (advs (adv x l) body) (rb :: k) := h2
    have h0 : At doc (adv x l) (body ++ rb :: k) := h1
    obtain ⟨e, es', y, e1, e2, _, e3⟩ := enumerators_read (t := rb) (k := k) (by simp [hd_of hrb]) (by
      intro y hy
      rw [lit_no hy (by rw [hd_of hrb]; decide)]
      rfl) he _ h0
    have hd := hdel e es' y e1 e2 e3
    have hc : delim ',' (advs (adv x l) body) = none :=
      delim_no h3 (by rw [hd_of hrb]; decide) (by rw [hd_of hrb]; decide)
    simp only [enumBodyP, delim_yes h hl (by decide), Option.bind_some, hd, hc, Option.getD_none,
      delim_yes h3 hrb (by decide), Option.map_some]
    rfl
  | yes c hc =>
    have h3 : At doc (advs (adv x l) body) (c :: rb :: k) := h2
    have h0 : At doc (adv x l) (body ++ c :: rb :: k) := h1
    obtain ⟨e, es', y, e1, e2, _, e3⟩ := enumerators_read (t := c) (k := rb :: k) (by simp [hd_of hc]) (by
      intro y hy
      rw [lit_yes hy hc, Option.bind_some, enumeratorP, identP_sym (At.tail hy) (symOk_of hrb (by decide))]) he _ h0
    have hd := hdel e es' y e1 e2 e3
    have h4 := At.tail h3
    simp only [enumBodyP, delim_yes h hl (by decide), Option.bind_some, hd, delim_yes h3 hc (by decide),
      Option.getD_some, delim_yes h4 hrb (by decide), Option.map_some]
    rfl

theorem kw_ident_none {g : Gram} (hg : gramOk g = true) {doc : Doc} {x : Pos} {kw : Tk} {k : List Tk}
    (h : At doc x (kw :: k)) (hk : k ≠ []) (hkw : kw.w ∈ [c%"struct", c%"union", c%"enum"]) :
    fundP g.cfg x = none ∧ identP g.cfg x = none := by
  obtain ⟨h1, h2, h3, _⟩ := kw_facts hg hkw
  exact ⟨fundP_word h hk h1 h2, by rw [identP_word h hk h1, if_pos h3]⟩

/-- The name of a type is read. -/
theorem typeNameP_read {g : Gram} (hg : gramOk g = true) {doc : Doc} (hpk : doc.pack = g.pack) {rc : Rec} {m : Nat}
    (hr : RecReads g doc rc m) {s s' : St} {ts k : List Tk} {n : Str} {x : Pos} (hn : CName g s ts s' n)
    (hm : ts.length ≤ m + 1) (h : At doc x (ts ++ k)) (hk : AfterName g k) :
    typeNameP g rc s x = (s', some (n, advs x ts)) := by
  have hne := afterName_ne hk
  have hcw : ∀ u, compWord u ∈ [c%"struct", c%"union", c%"enum"] := by intro u; cases u <;> decide
  cases hn with
  | fund _ t ts hu => simp only [typeNameP, fundP_read hg hk h hu]
  | ident _ t hi =>
    simp only [typeNameP, fundP_word h hne (identOk_spec hi).word (ident_not_fund hi), identP_ident h hne hi]
    rfl
  | comp _ _ u kw nt r hkw hi hp =>
    have h1 := At.tail h
    obtain ⟨f1, f2⟩ := kw_ident_none hg h (by simp) (hkw ▸ hcw u)
    have h2 := identP_ident h1 hne hi
    have h3 := bodyP_no (rc := rc) (At.tail h1) hk s
    simp only [typeNameP, f1, f2, structP, structKw_read h (by simp) hkw, optIdent, h2, h3, structP.finish]
    rw [← hpk, ← h.start.pk u hkw, hp]
    rfl
  | compDef _ s1 _ u kw l rb nm body name ms r hkw htag hl hrb hms hp =>
    simp only [List.cons_append, List.append_assoc, List.nil_append] at h
    simp only [List.length_append, List.length_cons] at hm
    have h1 := At.tail h
    obtain ⟨f1, f2⟩ := kw_ident_none hg h (by simp) (hkw ▸ hcw u)
    have h2 := optIdent_tag htag hl h1
    have h3 := bodyP_read hg hr hl hrb hms (by omega) (At.drop nm h1)
    simp only [typeNameP, f1, f2, structP, structKw_read h (by simp) hkw, h2, h3, structP.finish]
    rw [← hpk, ← h.start.pk u hkw, hp]
    simp [advs, advs_append]
  | enum _ _ kw nt r hkw hi hp =>
    have h1 := At.tail h
    obtain ⟨f1, f2⟩ := kw_ident_none hg h (by simp) (by rw [hkw]; decide)
    have hw : wordOk kw.w = true := by rw [hkw]; decide
    have h2 := identP_ident h1 hne hi
    have h3 := enumBodyP_no (At.tail h1) hk
    simp only [typeNameP, f1, f2, structP, structKw_enum h (by simp) hkw, enumP, keyword_word h (by simp) hw,
      if_pos hkw, optIdent, h2, h3, enumP.finish]
    rw [hp]
    rfl
  | enumDef _ _ kw l rb nm body oc name ms r hkw htag hl hrb hms hoc hp =>
    simp only [List.cons_append, List.append_assoc, List.nil_append] at h
    have h1 := At.tail h
    obtain ⟨f1, f2⟩ := kw_ident_none hg h (by simp) (by rw [hkw]; decide)
    have hw : wordOk kw.w = true := by rw [hkw]; decide
    have h2 := optIdent_tag htag hl h1
    have h3 := enumBodyP_read hl hrb hms hoc (At.drop nm h1)
    simp only [typeNameP, f1, f2, structP, structKw_enum h (by simp) hkw, enumP, keyword_word h (by simp) hw,
      if_pos hkw, h2, h3, enumP.finish]
    rw [hp]
    simp [advs, advs_append]

/-! ### Extra modifiers -/

/-- Extra modifiers are skipped. -/
theorem modLoop_read {g : Gram} (hg : gramOk g = true) {doc : Doc} {k : List Tk} (hk : AfterType g k) {m : List Tk} (hm : Mods g m) :
    ∀ (x : Pos) (n : Nat), At doc x (m ++ k) → Joins g m k → m.length ≤ n → modLoop g.mods n x = advs x m := by
  induction hm with
  | nil => intro x n h _ _; exact modLoop_no hg h hk n
  | word m ts hm hts ih =>
    intro x n h hj hn
    obtain ⟨n, rfl⟩ : ∃ j, n = j + 1 := ⟨n - 1, by simp at hn; omega⟩
    have h1 := At.tail h
    have hw := (gramOk_mod hg hm).1
    have hno : nestedP '(' ')' (adv x m) = none := by
      cases ts with
      | cons t ts =>
        have : t.w ∈ g.mods := by cases hts <;> assumption
        exact nestedP_no h1 (word_hd_ne (gramOk_mod hg this).1 (by decide))
      | nil =>
        cases k with
        | nil => exact absurd rfl (afterType_ne hk)
        | cons t k =>
          refine nestedP_no h1 (fun e => ?_)
          have h2 := hd_of_head (hj m t rfl (.inl hm) rfl) e
          obtain ⟨_, _, _, h3 | ⟨h3, _⟩⟩ := hk
          · exact h1.start.ne h2
          · rw [h2] at h3; cases h3
    simp only [modLoop, kwl_word h (by simp [afterType_ne hk]) hw, if_pos hm, hno, Option.getD_none]
    exact ih _ n h1 (joins_tail hj) (by simpa using hn)
  | call m l r b ts hm hl hr hb hts ih =>
    intro x n h hj hn
    obtain ⟨n, rfl⟩ : ∃ j, n = j + 1 := ⟨n - 1, by simp at hn; omega⟩
    simp only [List.cons_append, List.append_assoc] at h
    have hw := (gramOk_mod hg hm).1
    have h1 := At.tail h
    have h2 := nestedP_body (.inr ⟨rfl, rfl⟩) hl hr hb h1
    have h3 := At.tail (At.drop b (At.tail h1))
    simp only [modLoop, kwl_word h (by simp) hw, if_pos hm, h2, Option.getD_some]
    rw [ih _ n h3 (joins_tails (us := m :: l :: (b ++ [r])) (by simpa using hj)) (by simp at hn; omega)]
    simp [advs, advs_append]

/-- A type specifier is read. -/
theorem typeSpecP_read {g : Gram} (hg : gramOk g = true) {doc : Doc} (hpk : doc.pack = g.pack) {rc : Rec} {m : Nat}
    (hr : RecReads g doc rc m) {s s' : St} {ts k : List Tk} {q : List Str × Str} {x : Pos} (hn : CSpec g s ts s' q)
    (hm : ts.length ≤ m + 1) (h : At doc x (ts ++ k)) (hk : AfterType g k) (hj : Joins g ts k) :
    typeSpecP g rc s x = (s', some (q, advs x ts)) := by
  have hne := afterType_ne hk
  cases hn with
  | mk _ _ q ts ms qs n hq hn hms =>
    simp only [List.append_assoc] at h
    simp only [List.length_append] at hm
    have hname : AfterName g (ms ++ k) := by
      have key : ∀ (t : Tk) (k : List Tk), k ≠ [] → t.w ∈ g.mods → AfterName g (t :: k) := by
        intro t k hk ht
        have hw := (gramOk_mod hg ht).1
        exact ⟨word_hd_ne hw (by decide), word_hd_ne hw (by decide), word_hd_ne hw (by decide),
          .inr ⟨hw, hk, fun e => (gramOk_mod hg ht).2 (fund_keyword e)⟩⟩
      cases hms with
      | nil => exact hk.name
      | word t ts ht _ => exact key _ _ (by simp [hne]) ht
      | call t l r b ts ht => exact key _ _ (by simp) ht
    obtain ⟨t, ts', rfl, w1, w2, _, _, w3⟩ := name_start hg hn
    have r1 := qualP_read (g := g) h hq (.inr ⟨w1, by simp [hne], w2, w3⟩) (joins_hd (word_hd_ne w1 (by decide)))
    have r2 := typeNameP_read hg hpk hr hn (by omega) (At.drop q h) hname
    have h3 := At.drop (t :: ts') (At.drop q h)
    have hl := At.length h3
    have r3 := modLoop_read hg hk hms _ (advs (advs x q) (t :: ts')).rest.length h3 (joins_tails (us := q ++ (t :: ts')) (by simpa using hj)) (by rw [List.length_append] at hl; omega)
    simp only [typeSpecP, r1, r2, advs_append]
    rw [r3]

theorem typeSpecP_no {g : Gram} (hg : gramOk g = true) {doc : Doc} {rc : Rec} {t : Tk} {k : List Tk}
    (ht : symOk t = true) (s : St) {x : Pos} (h : At doc x (t :: k)) : typeSpecP g rc s x = (s, none) := by
  have r1 := qualP_read (g := g) (q := []) h .nil (.inl ht) (by intro a b h; cases h)
  simp only [advs] at r1
  simp only [typeSpecP, r1, typeNameP, fundP_sym hg h ht, identP_sym h ht, structP, structKw_sym h ht, enumP,
    keyword_sym h ht c%"enum" (by decide)]

theorem gram_succ (g : Gram) (n : Nat) :
    gram g (n + 1) = ⟨typeSpecP g (gram g n), declP g (gram g n), absP g (gram g n)⟩ := rfl

/-- Types and declarators of at most `m` tokens are read with the bound `m`. -/
theorem gram_reads {g : Gram} (hg : gramOk g = true) {doc : Doc} (hpk : doc.pack = g.pack) (m : Nat) : RecReads g doc (gram g m) m := by
  induction m with
  | zero =>
    refine ⟨?_, ?_, ?_, ?_, ?_⟩
    · intro s s' ts k q x h hl
      have := type_ne hg h
      omega
    · intro s s' ts k d x h hl
      have := decl_ne h
      omega
    · intro s ts k d x h hl
      omega
    · intros; rfl
    · intros; rfl
  | succ m ih =>
    rw [gram_succ]
    refine ⟨?_, ?_, ?_, ?_, ?_⟩
    · intro s s' ts k q x h hl hat hk hj
      exact typeSpecP_read hg hpk ih h hl hat hk hj
    · intro s s' ts k d x h hl hat hk
      exact declP_read hg ih h hl hat hk
    · intro s ts k d x h _ hat hk
      exact absP_read h hk s x hat
    · intro s ts k d x h hat hk
      exact declP_no h hk s x hat
    · intro s t k x hat ht
      exact typeSpecP_no hg ht s hat

end Pyclib
