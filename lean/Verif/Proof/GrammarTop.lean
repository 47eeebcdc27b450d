import Verif.Proof.GrammarType
import Verif.Proof.Store
/-
Proof that the parser reads the declarations of a header one after the other.
-/
namespace Pyclib

open Spec

attribute [local irreducible] exprP exprN

/-! ### Reading a function definition twice -/

/-- All names defined in `s` are defined in `s'`. -/
def Ext (s s' : St) : Prop := ∀ k n, dhas (s.defs k) n = true → dhas (s'.defs k) n = true

theorem Ext.refl (s : St) : Ext s s := fun _ _ h => h

theorem Ext.trans {a b c : St} (h : Ext a b) (h' : Ext b c) : Ext a c := fun k n x => h' k n (h k n x)

theorem ext_addDef (s : St) (k : Kind) (n : Str) (v : DefVal) : Ext s (addDef s k n v) := by
  intro k' n' h
  unfold dhas at h ⊢
  rw [defs_addDef]
  split
  · rfl
  · exact h

theorem has_addDef (s : St) (k : Kind) (n : Str) (v : DefVal) : dhas ((addDef s k n v).defs k) n = true := by
  unfold dhas
  rw [defs_addDef, if_pos ⟨rfl, rfl⟩]
  rfl

theorem procStruct_mention {ev : EvalExpr} {s s' : St} {u : Bool} {n r : Str} {pk : Option Nat}
    (h : procStruct ev s u (some n) [] pk = (s', some r)) :
    Ext s s' ∧ ∀ s'', Ext s' s'' → procStruct ev s'' u (some n) [] pk = (s'', some r) := by
  have key : Ext s s' ∧ dhas (s'.defs (compKind u)) n = true ∧ r = compWord u ++ ' ' :: n := by
    simp only [procStruct, Option.getD_some, ne_eq, not_true, false_or, membersOf] at h
    split at h
    · simp only [Prod.mk.injEq, Option.some.injEq] at h
      obtain ⟨rfl, rfl⟩ := h
      refine ⟨Ext.trans (ext_addDef _ _ _ _) (ext_addDef _ _ _ _), ?_, rfl⟩
      exact ext_addDef _ _ _ _ _ _ (has_addDef ..)
    · rename_i hh
      simp only [Prod.mk.injEq, Option.some.injEq] at h
      obtain ⟨rfl, rfl⟩ := h
      exact ⟨Ext.refl _, by simpa using hh, rfl⟩
  obtain ⟨h1, h2, rfl⟩ := key
  refine ⟨h1, fun s'' hx => ?_⟩
  have h3 := hx _ _ h2
  simp [procStruct, h3]

theorem procEnum_mention {ev : EvalExpr} {s s' : St} {n r : Str}
    (h : procEnum ev s (some n) [] = (s', some r)) :
    Ext s s' ∧ ∀ s'', Ext s' s'' → procEnum ev s'' (some n) [] = (s'', some r) := by
  have key : Ext s s' ∧ dhas (s'.defs .enums) n = true ∧ r = c%"enum " ++ n := by
    simp only [procEnum, Option.getD_some, enumLoop] at h
    split at h
    · rename_i hh
      simp only [Prod.mk.injEq, Option.some.injEq] at h
      obtain ⟨rfl, rfl⟩ := h
      exact ⟨Ext.refl _, hh, rfl⟩
    · simp only [Prod.mk.injEq, Option.some.injEq] at h
      obtain ⟨rfl, rfl⟩ := h
      refine ⟨Ext.trans (ext_addDef _ _ _ _) (ext_addDef _ _ _ _), ?_, rfl⟩
      exact ext_addDef _ _ _ _ _ _ (has_addDef ..)
  obtain ⟨h1, h2, rfl⟩ := key
  refine ⟨h1, fun s'' hx => ?_⟩
  have h3 := hx _ _ h2
  simp [procEnum, h3]

/-- No token is an opening brace. -/
def Flat (ts : List Tk) : Prop := ∀ u ∈ ts, u.w ≠ c%"{"

theorem Flat.left {a b : List Tk} (h : Flat (a ++ b)) : Flat a := fun u hu => h u (by simp [hu])
theorem Flat.right {a b : List Tk} (h : Flat (a ++ b)) : Flat b := fun u hu => h u (by simp [hu])

theorem spec_again {g : Gram} {s s' : St} {ts : List Tk} {q : List Str × Str} (h : CSpec g s ts s' q) (hf : Flat ts) :
    Ext s s' ∧ ∀ s'', Ext s' s'' → CSpec g s'' ts s'' q := by
  cases h with
  | mk _ _ q ts m qs n hq hn hm =>
    cases hn with
    | fund _ t ts hu => exact ⟨Ext.refl _, fun s'' _ => .mk _ _ _ _ _ _ _ hq (.fund _ t ts hu) hm⟩
    | ident _ t hi => exact ⟨Ext.refl _, fun s'' _ => .mk _ _ _ _ _ _ _ hq (.ident _ t hi) hm⟩
    | comp _ _ u kw n _ h1 h2 h3 =>
      obtain ⟨a, b⟩ := procStruct_mention h3
      exact ⟨a, fun s'' hx => .mk _ _ _ _ _ _ _ hq (.comp _ _ u kw n _ h1 h2 (b _ hx)) hm⟩
    | compDef _ _ _ u kw l rb nm body _ _ _ _ _ h1 => exact absurd h1 (hf l (by simp))
    | enum _ _ kw n _ h1 h2 h3 =>
      obtain ⟨a, b⟩ := procEnum_mention h3
      exact ⟨a, fun s'' hx => .mk _ _ _ _ _ _ _ hq (.enum _ _ kw n _ h1 h2 (b _ hx)) hm⟩
    | enumDef _ _ kw l rb nm body oc _ _ _ _ _ h1 => exact absurd h1 (hf l (by simp))

theorem decl_again {g : Gram} (N : Nat) :
    (∀ {s s' : St} {ts : List Tk} {d : Decl}, CDeclr g s ts s' d → Flat ts → ts.length ≤ N →
      Ext s s' ∧ ∀ s'', Ext s' s'' → CDeclr g s'' ts s'' d) ∧
    (∀ {s s' : St} {ts : List Tk} {as : ArgList}, CParams g s ts s' as → Flat ts → ts.length ≤ N →
      Ext s s' ∧ ∀ s'', Ext s' s'' → CParams g s'' ts s'' as) := by
  induction N with
  | zero =>
    constructor
    · intro s s' ts d h _ hl
      have := decl_ne h
      omega
    · intro s s' ts as h hf hl
      cases h with
      | one _ _ _ tq tn d val hp =>
        cases hp with
        | named _ s1 _ t dk v _ _ _ _ h1 h2 h3 h4 =>
          have := decl_ne h2
          simp only [List.length_append] at hl
          omega
        | abs _ s1 t dk v _ _ _ _ h1 h2 h3 =>
          obtain ⟨a, b⟩ := spec_again h1 hf.left
          exact ⟨a, fun s'' hx => .one _ _ _ _ _ _ _ (.abs _ _ t dk v _ _ _ _ (b _ hx) h2 h3)⟩
      | more => simp at hl
  | succ N ih =>
    obtain ⟨ihd, ihp⟩ := ih
    constructor
    · intro s s' ts d h hf hl
      cases h with
      | mk _ s1 _ q c p co ar a qs conv ps ref core b as es hq hnm hc hp hj hco har ha =>
        have hfc : Flat co := hf.right.right.right.left
        have hfa : Flat ar := hf.right.right.right.right.left
        simp only [List.length_append] at hl
        have hcore : Ext s s1 ∧ ∀ s'', Ext s1 s'' → CCore g s'' co s'' ref core := by
          cases hco with
          | name _ a ref n ha hn => exact ⟨Ext.refl _, fun s'' _ => .name _ a ref n ha hn⟩
          | center _ _ l r ts d h1 h2 h3 =>
            simp only [List.length_cons, List.length_append] at hl
            obtain ⟨x, y⟩ := ihd h3 (fun u hu => hfc u (by simp [hu])) (by omega)
            exact ⟨x, fun s'' hx => .center _ _ l r ts d h1 h2 (y _ hx)⟩
        have hargs : Ext s1 s' ∧ ∀ s'', Ext s' s'' → CArgs g s'' ar s'' b as := by
          cases har with
          | none => exact ⟨Ext.refl _, fun s'' _ => .none _⟩
          | empty _ l r h1 h2 => exact ⟨Ext.refl _, fun s'' _ => .empty _ l r h1 h2⟩
          | list _ _ l r ps as h1 h2 h3 =>
            simp only [List.length_cons, List.length_append] at hl
            obtain ⟨x, y⟩ := ihp h3 (fun u hu => hfa u (by simp [hu])) (by omega)
            exact ⟨x, fun s'' hx => .list _ _ l r ps as h1 h2 (y _ hx)⟩
        refine ⟨hcore.1.trans hargs.1, fun s'' hx => ?_⟩
        exact .mk _ _ _ q c p co ar a qs conv ps ref core b as es hq hnm hc hp hj (hcore.2 _ (hargs.1.trans hx)) (hargs.2 _ hx) ha
    · have hpar : ∀ {s s' : St} {ts : List Tk} {tq : List Str} {tn : Str} {d : Decl} {val : Option Str},
          CParam g s ts s' tq tn d val → Flat ts → ts.length ≤ N + 1 →
          Ext s s' ∧ ∀ s'', Ext s' s'' → CParam g s'' ts s'' tq tn d val := by
        intro s s' ts tq tn d val hp hf hl
        cases hp with
        | named _ s1 _ t dk v _ _ _ _ h1 h2 h3 h4 =>
          have ht : 1 ≤ t.length := by
            cases h1 with
            | mk _ _ q ts m qs n _ hn => cases hn <;> simp <;> omega
          simp only [List.length_append] at hl
          obtain ⟨x, y⟩ := spec_again h1 hf.left
          obtain ⟨x', y'⟩ := ihd h2 hf.right.left (by omega)
          exact ⟨x.trans x', fun s'' hx => .named _ _ _ t dk v _ _ _ _ (y _ (x'.trans hx)) (y' _ hx) h3 h4⟩
        | abs _ s1 t dk v _ _ _ _ h1 h2 h3 =>
          obtain ⟨x, y⟩ := spec_again h1 hf.left
          exact ⟨x, fun s'' hx => .abs _ _ t dk v _ _ _ _ (y _ hx) h2 h3⟩
      intro s s' ts as h hf hl
      cases h with
      | one _ _ _ tq tn d val hp =>
        obtain ⟨x, y⟩ := hpar hp hf hl
        exact ⟨x, fun s'' hx => .one _ _ _ _ _ _ _ (y _ hx)⟩
      | more _ s1 _ ts ts' c tq tn d val as hp hc hps =>
        simp only [List.length_append, List.length_cons] at hl
        obtain ⟨x, y⟩ := hpar hp hf.left (by omega)
        obtain ⟨x', y'⟩ := ihp hps (fun u hu => hf u (by simp [hu])) (by omega)
        exact ⟨x.trans x', fun s'' hx => .more _ _ _ _ _ c _ _ _ _ _ (y _ (x'.trans hx)) hc (y' _ hx)⟩

/-! ### Declarations at file level -/

theorem storage_facts {w : Str} (h : w ∈ storageWords) : wordOk w = true ∧ w ≠ c%"typedef" := by
  revert w
  decide

theorem storageP_read {g : Gram} (hg : gramOk g = true) {doc : Doc} {st t k : List Tk} {s s' : St}
    {q : List Str × Str} {x : Pos} (hs : Storage st) (ht : CSpec g s t s' q) (hk : k ≠ [])
    (h : At doc x (st ++ (t ++ k))) : storageP x = advs x st ∧ keyword c%"typedef" x = none := by
  obtain ⟨u, t', rfl, hw, hn, hn'⟩ := type_start hg ht
  cases hs with
  | no =>
    have h' : At doc x (u :: (t' ++ k)) := h
    refine ⟨storageP_type hg ht hk h, ?_⟩
    rw [keyword_word h' (by simp [hk]) hw, if_neg hn']
  | yes v hv =>
    have h' : At doc x (v :: u :: (t' ++ k)) := h
    obtain ⟨a, b⟩ := storage_facts hv
    refine ⟨?_, by rw [keyword_word h' (by simp) a, if_neg b]⟩
    simp only [storageP, kwl_word h' (by simp) a, if_pos hv]
    rfl

theorem exprs_read {g : Gram} {doc : Doc} {r : Tk} {k : List Tk} (hr : r.w = c%"}") {ts : List Tk} {es : List Str}
    (he : Exprs g ts es) : ∀ x, At doc x (ts ++ r :: k) → ∃ e es' y, es = e :: es' ∧
      exprP g.cfg x = some (e, y) ∧ y.rest.length < x.rest.length ∧
      ∀ n, y.rest.length ≤ n → commaLoop (exprP g.cfg) n y = (es', advs x ts) := by
  induction he with
  | one ts e he =>
    intro x h
    have h1 := exprP_read he h (by simp [AfterExpr, endChars, hd_of hr])
    have h2 := At.advs_length ts h
    have h3 : 1 ≤ ts.length := List.length_pos_iff.2 (exprTks_ne he)
    refine ⟨e, [], _, rfl, h1, by omega, fun n _ => ?_⟩
    exact commaLoop_no (lit_no (At.drop ts h) (by rw [hd_of hr]; decide)) n
  | more ts e c ts' es he hc _ ih =>
    intro x h
    simp only [List.append_assoc] at h
    have h1 := exprP_read he h (by simp [AfterExpr, endChars, hd_of hc])
    have h2 := At.drop ts h
    have h3 := At.tail h2
    obtain ⟨e', es', y, rfl, h4, h5, h6⟩ := ih _ h3
    have h7 := At.advs_length ts h
    have h8 := At.adv_length h2
    refine ⟨e, e' :: es', _, rfl, h1, by
      have : 1 ≤ ts.length := List.length_pos_iff.2 (exprTks_ne he)
      omega, fun n hn => ?_⟩
    obtain ⟨n, rfl⟩ : ∃ j, n = j + 1 := ⟨n - 1, by omega⟩
    have h10 := h6 n (by omega)
    simp only [commaLoop, lit_yes h2 hc, h4, h10]
    simp [advs_append, advs]

/-- An initializer is read. -/
theorem initP_read {g : Gram} {doc : Doc} {i k : List Tk} {ini : Init} {x : Pos} {semi : Tk} (hi : CInit g i ini)
    (hs : semi.w = c%";") (h : At doc x (i ++ semi :: k)) : initP g.cfg x = (ini, advs x i) := by
  cases hi with
  | none => exact initP_no h (by rw [hd_of hs]; decide)
  | value eq e v he hv =>
    have h1 := At.tail h
    have h2 := exprP_read hv h1 (by simp [AfterExpr, endChars, hd_of hs])
    simp only [initP, lit_yes h he, h2]
    rfl
  | values eq l r ts xs he hl hr hx =>
    simp only [List.cons_append, List.append_assoc, List.nil_append] at h
    have h1 := At.tail h
    have h2 := At.tail h1
    have h3 := At.drop ts h2
    obtain ⟨e, es', y, rfl, h4, _, h5⟩ := exprs_read hr hx _ h2
    have h6 : delimited (exprP g.cfg) (adv (adv x eq) l) = some (e :: es', advs (adv (adv x eq) l) ts) := by
      simp only [delimited, h4, h5 _ (Nat.le_refl _)]
    have h7 : exprP g.cfg (adv x eq) = none := exprP_no h1 (by simp [hd_of hl])
    simp only [initP, lit_yes h he, h7, lit_yes h1 hl, Option.bind_some, h6, delim_yes h3 hr (by decide)]
    simp [advs, advs_append]

theorem cinit_start {g : Gram} {i k : List Tk} {ini : Init} {semi : Tk} (hi : CInit g i ini) (hs : semi.w = c%";") :
    ∃ t k', i ++ semi :: k = t :: k' ∧ t.hd ∈ [';', '=', ':'] := by
  cases hi with
  | none => exact ⟨semi, k, rfl, by simp [hd_of hs]⟩
  | value eq e v he hv => exact ⟨eq, _, rfl, by simp [hd_of he]⟩
  | values eq l r ts xs he hl hr hx => exact ⟨eq, _, rfl, by simp [hd_of he]⟩

/-- A declaration at file level is read and processed. -/
theorem topP_read {g : Gram} (hg : gramOk g = true) {doc : Doc} {rc : Rec} {m : Nat} (hr : RecReads g doc rc m)
    {s s' : St} {ts k : List Tk} {x : Pos} (ht : CTop g s ts s') (hm : ts.length ≤ m) (h : At doc x (ts ++ k)) :
    topP g rc s x = (s', .next (advs x ts)) := by
  cases ht with
  | typedef s1 s2 _ kw semi t d tq tn ds hkw h1 h2 hs h3 hj =>
    simp only [List.cons_append, List.append_assoc, List.nil_append] at h
    simp only [List.length_append, List.length_cons] at hm
    have hw : wordOk kw.w = true := by rw [hkw]; decide
    have k1 := At.tail h
    have k2 := At.drop t k1
    have k3 := At.drop d k2
    have a1 := hr.type s s1 t _ _ _ h1 (by omega) k1 (decls_start hg h2 (by simp)).1 (joins_decls hg h2 hj)
    have a2 := delimitedS_read (decls_read hr (by simp [hd_of hs]) d.length h2 (Nat.le_refl _) (by omega) k2)
    have a3 := delim_yes k3 hs (by decide)
    simp only [topP, typedefP, keyword_word h (by simp) hw, if_pos hkw, a1, a2, a3, Option.map_some, h3]
    simp [advs, advs_append]
  | var s1 s2 st t d i semi tq tn ds ini hst h1 h2 hi hs hj =>
    simp only [List.cons_append, List.append_assoc, List.nil_append] at h
    simp only [List.length_append, List.length_cons] at hm
    obtain ⟨b1, b2⟩ := storageP_read hg hst h1 (by simp) h
    have k1 := At.drop st h
    have k2 := At.drop t k1
    have k3 := At.drop d k2
    have k4 := At.drop i k3
    obtain ⟨u, k', e, hu⟩ := cinit_start (k := k) hi hs
    have a1 := hr.type s s1 t _ _ _ h1 (by omega) k1 (decls_start hg h2 (by simp)).1 (joins_decls hg h2 hj)
    have k2' := k2
    rw [e] at k2'
    have a2 := delimitedS_read (decls_read hr hu d.length h2 (Nat.le_refl _) (by omega) k2')
    have a3 := initP_read hi hs k3
    have a4 := delim_yes k4 hs (by decide)
    simp only [topP, typedefP, b2, varP, b1, a1, a2, Option.getD_some, a3, a4]
    simp [advs, advs_append]
  | type s1 st t semi tq tn hst h1 hs =>
    simp only [List.cons_append, List.append_assoc, List.nil_append] at h
    simp only [List.length_append, List.length_cons] at hm
    obtain ⟨b1, b2⟩ := storageP_read hg hst h1 (by simp) h
    have k1 := At.drop st h
    have k2 := At.drop t k1
    have a1 := hr.type s s' t _ _ _ h1 (by omega) k1 (afterType_sym (by rw [hd_of hs]; decide)) (joins_hd (by rw [hd_of hs]; decide))
    have a2 := (decls_no hr (by rw [hd_of hs]; decide) s' k2).2
    have a3 := initP_no (g := g) k2 (by rw [hd_of hs]; decide)
    have a4 := delim_yes k2 hs (by decide)
    simp only [topP, typedefP, b2, varP, b1, a1, a2, Option.getD_none, a3, a4, procVariable, varLoop]
    simp [advs, advs_append]
  | func s1 s2 st t d b l r tq tn d' hst h1 h2 hf hl hrb hb hj =>
    simp only [List.cons_append, List.append_assoc, List.nil_append] at h
    simp only [List.length_append, List.length_cons] at hm
    obtain ⟨b1, b2⟩ := storageP_read hg hst h1 (by simp) h
    have k1 := At.drop st h
    have k2 := At.drop t k1
    have k3 := At.drop d k2
    have haft : AfterType g (d ++ l :: (b ++ r :: k)) := afterType_decl hg h2 (by simp)
    have hdec : AfterDecl (l :: (b ++ r :: k)) := by simp [AfterDecl, hd_of hl]
    have a1 := hr.type s s1 t _ _ _ h1 (by omega) k1 haft (joins_left hj (decl_nonempty h2))
    have a2 := hr.decl s1 s2 d _ _ _ h2 (by omega) k2 hdec
    have a3 : delimitedS rc.decl s1 (advs (advs x st) t) = (s2, some ([d'], advs (advs (advs x st) t) d)) :=
      delimitedS_read (.one _ _ _ _ _ a2 (lit_no k3 (by rw [hd_of hl]; decide)))
    have a4 := initP_no (g := g) k3 (by rw [hd_of hl]; decide)
    have a5 : delim ';' (advs (advs (advs x st) t) d) = none :=
      delim_no k3 (by rw [hd_of hl]; decide) (by rw [hd_of hl]; decide)
    have hfl : Flat (t ++ d) := hf
    obtain ⟨_, c1⟩ := spec_again h1 hfl.left
    obtain ⟨e1, c2⟩ := (decl_again d.length).1 h2 hfl.right (Nat.le_refl _)
    have a6 := hr.type s2 s2 t _ _ _ (c1 s2 e1) (by omega) k1 haft (joins_left hj (decl_nonempty h2))
    have a7 := hr.decl s2 s2 d _ _ _ (c2 s2 (Ext.refl _)) (by omega) k2 hdec
    have a8 := nestedP_body (.inl ⟨rfl, rfl⟩) hl hrb hb k3
    simp only [topP, typedefP, b2, varP, b1, a1, a3, Option.getD_some, a4, a5, functionP, a6, a7, a8, Option.map_some]
    simp [advs, advs_append]

/-! ### Headers -/

theorem skip_skip (x : Pos) : x.skip.skip = x.skip := by
  obtain ⟨p, s⟩ := x
  induction s generalizing p with
  | nil => rfl
  | cons c s ih =>
    simp only [Pos.skip, skipWs]
    split
    · exact ih c
    · rename_i h
      simp only [skipWs, if_neg h]

theorem apart_white_left {a : Char} (c : Char) (h : isWhite a = true) : apart a c = true := by
  rcases isWhite_cases h with h | h | h | h <;> subst h <;> simp [apart, pairOps, isIdC, isWordC] <;> decide

theorem At.skip {doc : Doc} {x : Pos} {t : Tk} {k : List Tk} (h : At doc x (t :: k)) : At doc x.skip (t :: k) := by
  obtain ⟨xp, xr⟩ := x
  unfold At at h ⊢
  simp only at h
  generalize hts : t :: k = ts at h
  cases h with
  | nil => cases hts
  | cons p ws c w text ts _ hw hc hs hpk hl =>
    cases hts
    have e : Pos.skip ⟨xp, ws ++ (c :: w) ++ text⟩ = ⟨ws.getLastD xp, c :: w ++ text⟩ := by
      simp only [Pos.skip, List.append_assoc, List.cons_append]
      exact skipWs_white ws xp c _ hw hc
    rw [e]
    refine .cons _ [] c w text _ _ rfl hc (.inr ?_) hpk hl
    cases ws with
    | nil =>
      rcases hs with hs | hs
      · exact absurd rfl hs
      · exact hs
    | cons a ws =>
      refine apart_white_left c (List.all_eq_true.1 hw _ ?_)
      rw [List.getLastD_cons]
      exact List.getLastD_mem_cons

theorem advs_skip (x : Pos) (t : Tk) (ts : List Tk) : advs x.skip (t :: ts) = advs x (t :: ts) := by
  simp only [advs, adv, skip_skip]

theorem top_ne {g : Gram} {s s' : St} {ts : List Tk} (h : CTop g s ts s') : 1 ≤ ts.length := by
  cases h <;> simp <;> omega

/-! ### Text that is skipped -/

/-- Nothing is read where no type begins. -/
theorem topP_none {g : Gram} {rc : Rec} {s : St} {x : Pos} (h1 : keyword c%"typedef" x = none)
    (h2 : rc.type s (storageP x) = (s, none)) : topP g rc s x = (s, .fail) := by
  simp only [topP, typedefP, h1, varP, h2, functionP]

theorem gram_type_sym {g : Gram} (hg : gramOk g = true) (n : Nat) {doc : Doc} {t : Tk} {k : List Tk}
    (ht : symOk t = true) (s : St) {x : Pos} (h : At doc x (t :: k)) : (gram g n).type s x = (s, none) := by
  cases n with
  | zero => rfl
  | succ n => rw [gram_succ]; exact typeSpecP_no hg ht s h

/-- No declaration begins with a symbol. -/
theorem topP_sym {g : Gram} (hg : gramOk g = true) (n : Nat) {doc : Doc} {t : Tk} {k : List Tk} (ht : symOk t = true)
    (s : St) {x : Pos} (h : At doc x (t :: k)) : topP g (gram g n) s x = (s, .fail) :=
  topP_none (keyword_sym h ht _ (by decide)) (by rw [storageP_sym h ht]; exact gram_type_sym hg n ht s h)

/-- A position in front of a symbol. -/
theorem at_sym (pk : Nat → Option Nat) (p c : Char) (rest : Str) (hw : isWhite c = false) (ha : apart p c = true)
    (hc : isIdC c = false) : At ⟨rest, pk⟩ ⟨p, c :: rest⟩ [⟨[c], none⟩] :=
  .cons p [] c [] rest [] none rfl hw (.inr ha) (fun u e => by
    cases u <;> simp [compWord] at e) (.nil _)

/-- No declaration begins inside a word. -/
theorem topP_inside (g : Gram) (n : Nat) (s : St) {p c : Char} (rest : Str) (hp : isWordC p = true)
    (hc : isWhite c = false) : topP g (gram g n) s ⟨p, c :: rest⟩ = (s, .fail) := by
  have hs : Pos.skip ⟨p, c :: rest⟩ = ⟨p, c :: rest⟩ := by simp [Pos.skip, skipWs, hc]
  have hi : isIdC p = true := by simp [isIdC, hp]
  have k1 : ∀ ws, kwl ws ⟨p, c :: rest⟩ = none := by intro ws; simp only [kwl, hs, hp, if_true]
  have k2 : ∀ w, keyword w ⟨p, c :: rest⟩ = none := by intro ws; simp only [keyword, hs, hi, if_true]
  have k3 : identP g.cfg ⟨p, c :: rest⟩ = none := by simp only [identP, hs, hi, if_true]
  have k4 : underIdent g.cfg ⟨p, c :: rest⟩ = none := by simp only [underIdent, hs, hi, if_true]
  have k5 : qualP g.cfg ⟨p, c :: rest⟩ = ([], ⟨p, c :: rest⟩) := by
    simp only [qualP, List.length_cons, qualLoop, k4, k1]
  refine topP_none (k2 _) ?_
  have k6 : storageP ⟨p, c :: rest⟩ = ⟨p, c :: rest⟩ := by simp only [storageP, k1]
  rw [k6]
  cases n with
  | zero => rfl
  | succ n =>
    simp only [gram, typeSpecP, k5, typeNameP, fundP, k1, k3, structP, structKw, k2, Option.map_none, enumP]

theorem scan_inside (g : Gram) (n : Nat) (s : St) {p c : Char} (rest : Str) (hp : isWordC p = true) (hc : isWhite c = false)
    (j : Nat) : scan g n (j + 1) s ⟨p, c :: rest⟩ = scan g n j s ⟨c, rest⟩ := by
  have hs : Pos.skip ⟨p, c :: rest⟩ = ⟨p, c :: rest⟩ := by simp [Pos.skip, skipWs, hc]
  simp only [scan, hs, topP_inside g n s rest hp hc]

/-- A symbol is skipped. -/
theorem scan_sym {g : Gram} (hg : gramOk g = true) (n : Nat) {doc : Doc} {t : Tk} {k : List Tk} (ht : symOk t = true)
    (s : St) {x : Pos} (h : At doc x (t :: k)) (j : Nat) :
    scan g n (j + 1) s x = scan g n j s ⟨t.hd, x.skip.rest.tail⟩ := by
  have hr := head_rest h
  cases hx : x.skip.rest with
  | nil => rw [hx] at hr; cases hr
  | cons c rest =>
    rw [hx] at hr
    simp only [List.head?_cons, Option.some.injEq] at hr
    simp only [scan, hx, topP_sym hg n ht s (At.skip h), hr, List.tail_cons]

theorem declP_quote {g : Gram} (rc : Rec) {doc : Doc} {t : Tk} {k : List Tk} (ht : t.hd = '"')
    (s : St) {x : Pos} (h : At doc x (t :: k)) : declP g rc s x = (s, none) := by
  have hs : symOk t = true := by rw [symOk, ht]; decide
  have r1 := qualP_read (g := g) (q := []) h .nil (.inl hs) (by intro a b h; cases h)
  simp only [advs] at r1
  simp only [declP, r1, convP_no h (.inl hs), ptrLoop_stop h (by rw [ht]; decide), declCoreP, declCoreP.refName,
    lit_no h (c := '&') (by rw [ht]; decide), lit_no h (c := '(') (by rw [ht]; decide), identP_sym h hs, Option.map_none]

/-- The first quotation mark of the text does not end a literal in front of a semicolon. -/
def quoteOk : Str → Bool
  | [] => true
  | '\\' :: _ => false
  | ['"'] => true
  | '"' :: c :: _ => linkTok.linkChar c
  | _ :: s => quoteOk s

theorem quoteOk_skip {c : Char} {s : Str} (h1 : c ≠ '"') (h2 : c ≠ '\\') : quoteOk (c :: s) = quoteOk s := by
  rw [quoteOk] <;> simp_all

theorem quoteOk_append : ∀ {w s : Str}, w.all (fun c => decide (c ≠ '"') && decide (c ≠ '\\')) = true →
    quoteOk (w ++ s) = quoteOk s
  | [], _, _ => rfl
  | c :: w, s, h => by
    simp only [List.all_cons, Bool.and_eq_true, decide_eq_true_eq] at h
    rw [List.cons_append, quoteOk_skip h.1.1 h.1.2]
    exact quoteOk_append (by simpa using h.2)

theorem quoteOk_white {ws : Str} (h : ws.all isWhite = true) : quoteOk ws = true := by
  rw [← List.append_nil ws, quoteOk_append]
  · rfl
  · rw [List.all_eq_true] at h ⊢
    intro x hx
    rcases isWhite_cases (h x hx) with e | e | e | e <;> subst e <;> decide

theorem at_quoteOk_step {doc : Doc} {x : Pos} {t : Tk} {k : List Tk} (h : At doc x (t :: k))
    (ih : quoteOk (adv x t).rest = true) (hq : linkTok t.w = true) : quoteOk x.rest = true := by
  have e := h.start.skip
  obtain ⟨p, r⟩ := x
  have hs : ∀ (r : Str) (p : Char), quoteOk r = quoteOk (skipWs p r).rest := by
    intro r
    induction r with
    | nil => intro p; rfl
    | cons c r ih =>
      intro p
      simp only [skipWs]
      split
      · rename_i hw
        rw [← ih c]
        rcases isWhite_cases hw with e | e | e | e <;> subst e <;> exact quoteOk_skip (by decide) (by decide)
      · rfl
  rw [hs r p]
  have : (skipWs p r).rest = t.w ++ (adv ⟨p, r⟩ t).rest := congrArg Pos.rest e
  rw [this]
  unfold linkTok at hq
  split at hq
  · rename_i c w e
    rw [e]
    exact hq
  · rw [quoteOk_append hq]; exact ih

theorem at_quoteOk {doc : Doc} : ∀ (ts : List Tk) {k : List Tk} {x : Pos}, At doc x (ts ++ k) →
    quoteOk (advs x ts).rest = true → (∀ u ∈ ts, linkTok u.w = true) → quoteOk x.rest = true
  | [], _, _, _, h, _ => h
  | t :: ts, k, x, h, hq, ht => by
    have ih := at_quoteOk ts (At.tail h) hq (fun u hu => ht u (by simp [hu]))
    have := at_quoteOk_step h ih (ht t (by simp))
    exact this

/-- Where the body of a literal ends. -/
theorem qBody_stop : ∀ (s : Str), quoteOk s = true → ∀ c r, (qBody '"' s).2 = c :: r → c = '"' →
    r = [] ∨ ∃ d r', r = d :: r' ∧ linkTok.linkChar d = true
  | [], _, c, r, h, _ => by simp [qBody] at h
  | [a], _, c, r, h, _ => by
    simp only [qBody] at h
    split at h
    · simp at h; exact .inl (by simp [h.2])
    · simp at h
  | a :: d :: s, hq, c, r, h, hc => by
    have ha : a ≠ '\\' := by rintro rfl; simp [quoteOk] at hq
    unfold qBody at h
    rw [if_neg ha] at h
    split at h
    · rename_i e
      subst e
      have hq' : linkTok.linkChar d = true := by simpa [quoteOk] using hq
      have hd : d ≠ '"' := by rintro rfl; revert hq'; decide
      rw [if_neg hd] at h
      simp at h
      exact .inr ⟨d, s, h.2.symm, hq'⟩
    · rename_i e
      split at h
      · rename_i e2
        simp at h
        rw [← h.1] at hc
        exact absurd hc e
      · exact qBody_stop (d :: s) (by rwa [quoteOk_skip e ha] at hq) c r h hc

theorem delim_quote {p : Char} {rest : Str} (h : quoteOk rest = true) : delim ';' ⟨p, '"' :: rest⟩ = none := by
  have hl : ∀ p', lit ';' ⟨p', '"' :: rest⟩ = none := fun _ => rfl
  have hq : quotedTok ⟨p, '"' :: rest⟩ = (matchQuoted '"' rest).map (fun p => ('"' :: p.1, ⟨'"', p.2⟩)) := rfl
  simp only [delim, List.length_cons, skipQuoted, hq]
  cases hm : matchQuoted '"' rest with
  | none => exact hl p
  | some b =>
    obtain ⟨b, r⟩ := b
    simp only [Option.map_some]
    unfold matchQuoted at hm
    split at hm
    · rename_i b' c r' e
      split at hm
      · rename_i hc
        cases hm
        rcases qBody_stop rest h c r (by rw [e]) hc with rfl | ⟨d, r', rfl, hd⟩
        · cases rest.length <;> rfl
        · simp only [linkTok.linkChar, Bool.and_eq_true, Bool.not_eq_true', decide_eq_true_eq, List.mem_cons,
            List.not_mem_nil, or_false, not_or] at hd
          obtain ⟨⟨h1, h2, h3⟩, h4⟩ := hd
          have hs : Pos.skip ⟨'"', d :: r'⟩ = ⟨'"', d :: r'⟩ := by simp [Pos.skip, skipWs, h4]
          have hn : quotedTok ⟨'"', d :: r'⟩ = none := by simp [quotedTok, hs, h2, h3]
          have hk : ∀ n, skipQuoted n ⟨'"', d :: r'⟩ = ⟨'"', d :: r'⟩ := by
            intro n
            cases n with
            | zero => rfl
            | succ n => simp only [skipQuoted, hn]
          simp only [hk, lit, hs, if_neg h1]
      · cases hm
    · cases hm

/-- The `C` of `extern "C"` is not the beginning of a declaration. -/
theorem topP_C {g : Gram} (hg : gramOk g = true) (n : Nat) (s : St) {rest : Str} (hq' : quoteOk rest = true) :
    topP g (gram g n) s ⟨'"', 'C' :: '"' :: rest⟩ = (s, .fail) := by
  have hs : Pos.skip ⟨'"', 'C' :: '"' :: rest⟩ = ⟨'"', 'C' :: '"' :: rest⟩ := rfl
  have w1 : ('C' :: '"' :: rest).takeWhile isWordC = ['C'] := rfl
  have w2 : ('C' :: '"' :: rest).takeWhile isIdC = ['C'] := rfl
  have k1 : ∀ ws, kwl ws ⟨'"', 'C' :: '"' :: rest⟩ = if ['C'] ∈ ws then some (['C'], ⟨'C', '"' :: rest⟩) else none :=
    fun ws => rfl
  have k2 : ∀ w, keyword w ⟨'"', 'C' :: '"' :: rest⟩ = if ['C'] = w then some (posAfter w ('"' :: rest)) else none :=
    fun ws => rfl
  have k3 : identP g.cfg ⟨'"', 'C' :: '"' :: rest⟩ =
      if ['C'] ∈ keywords g.cfg then none else some (['C'], ⟨'C', '"' :: rest⟩) := rfl
  have k4 : underIdent g.cfg ⟨'"', 'C' :: '"' :: rest⟩ = none := by
    simp [underIdent, hs, startsWith]
  have k5 : qualP g.cfg ⟨'"', 'C' :: '"' :: rest⟩ = ([], ⟨'"', 'C' :: '"' :: rest⟩) := by
    have : ['C'] ∉ qualWords := by decide
    simp only [qualP, List.length_cons, qualLoop, k4, k1, if_neg this]
  have k6 : storageP ⟨'"', 'C' :: '"' :: rest⟩ = ⟨'"', 'C' :: '"' :: rest⟩ := by
    have : ['C'] ∉ storageWords := by decide
    simp only [storageP, k1, if_neg this]
  have hq : At ⟨rest, fun _ => none⟩ ⟨'C', '"' :: rest⟩ [⟨['"'], none⟩] := at_sym _ _ _ _ rfl (by decide) (by decide)
  have hsy : symOk ⟨['"'], none⟩ = true := by decide
  have hhd : (⟨['"'], none⟩ : Tk).hd = '"' := rfl
  have hmods : ([] : Str) ∉ g.mods := by
    intro h
    simp only [gramOk, Bool.and_eq_true, List.all_eq_true] at hg
    exact absurd (hg.2 _ h).1 (by decide)
  have m1 : ∀ j, modLoop g.mods j ⟨'C', '"' :: rest⟩ = ⟨'C', '"' :: rest⟩ := by
    intro j
    cases j with
    | zero => rfl
    | succ j => simp only [modLoop, kwl_sym hq hsy _ hmods]
  cases n with
  | zero => exact topP_none (by rw [k2]; exact if_neg (by decide)) rfl
  | succ n =>
    have hf : fundP g.cfg ⟨'"', 'C' :: '"' :: rest⟩ =
        if ['C'] ∈ fundWords g.cfg then some (['C'], ⟨'C', '"' :: rest⟩) else none := by
      have hn : kwl (fundWords g.cfg) ⟨'C', '"' :: rest⟩ = none := by
        have := fundP_sym hg hq hsy
        unfold fundP at this
        split at this
        · assumption
        · cases this
      by_cases h : ['C'] ∈ fundWords g.cfg
      · simp only [fundP, k1, if_pos h, List.length_cons, fundLoop, hn, joinC]
      · simp only [fundP, k1, if_neg h]
    have ht : (gram g (n + 1)).type s ⟨'"', 'C' :: '"' :: rest⟩ = (s, some (([], ['C']), ⟨'C', '"' :: rest⟩)) := by
      simp only [gram, typeSpecP, k5, typeNameP, hf, k3]
      by_cases h1 : ['C'] ∈ fundWords g.cfg
      · simp only [if_pos h1, m1]
      · have h2 : ['C'] ∉ keywords g.cfg := by
          intro h
          simp only [keywords, fundWords, baseTypes, List.mem_append] at h h1
          revert h h1
          simp [qualWords]
          grind
        simp only [if_neg h1, if_neg h2, m1]
    have hd : (gram g (n + 1)).decl s ⟨'C', '"' :: rest⟩ = (s, none) := by
      simp only [gram]
      exact declP_quote _ hhd s hq
    have hkw : keyword c%"typedef" ⟨'"', 'C' :: '"' :: rest⟩ = none := by rw [k2]; exact if_neg (by decide)
    simp only [topP, typedefP, hkw, varP, k6, ht, delimitedS, hd, Option.getD_none, initP_no (g := g) hq (by decide),
      delim_quote hq', functionP]

/-- `extern "C"` is skipped. -/
theorem scan_linkage {g : Gram} (hg : gramOk g = true) (n : Nat) {doc : Doc} {e l : Tk} {k : List Tk} (he : e.w = c%"extern")
    (hl : l.w = c%"\"C\"") (s : St) {x : Pos} (h : At doc x (e :: l :: k)) (j : Nat) (hj : x.rest.length < j)
    (hq : quoteOk (adv (adv x e) l).rest = true) : ∃ j', (adv (adv x e) l).rest.length < j' ∧ scan g n j s x = scan g n j' s (adv (adv x e) l) := by
  have h1 := At.tail h
  have hw : wordOk e.w = true := by rw [he]; decide
  have hsl : symOk l = true := symOk_of hl (by decide)
  have hr := h.start.rest
  have hr1 := h1.start.rest
  rw [he] at hr
  rw [hl] at hr1
  have e1 : adv x e = ⟨'n', (adv x e).rest⟩ := by simp [adv, he, posAfter]
  have e2 : adv (adv x e) l = ⟨'"', (adv (adv x e) l).rest⟩ := by
    generalize adv x e = y
    simp [adv, hl, posAfter]
  have l1 := skip_length x
  have l2 := skip_length (adv x e)
  simp only [hr, hr1, List.length_append, List.length_cons, List.length_nil] at l1 l2
  obtain ⟨i, rfl⟩ : ∃ i, j = i + 9 := ⟨j - 9, by omega⟩
  refine ⟨i, by omega, ?_⟩
  have t1 : topP g (gram g n) s x.skip = (s, .fail) := by
    have h' := At.skip h
    have ea : adv x.skip e = adv x e := by simp only [adv, skip_skip]
    refine topP_none ?_ ?_
    · rw [keyword_word h' (by simp) hw, he]
      exact if_neg (by decide)
    · simp only [storageP, kwl_word h' (by simp) hw, he, show c%"extern" ∈ storageWords by decide, if_true, ea]
      exact gram_type_sym hg n hsl s h1
  have s1 : scan g n (i + 9) s x = scan g n (i + 8) s ⟨'e', c%"xtern" ++ (adv x e).rest⟩ := by
    rw [scan]
    simp only [hr, List.cons_append, t1]
  have s2 : scan g n (i + 8) s ⟨'e', c%"xtern" ++ (adv x e).rest⟩ = scan g n (i + 3) s (adv x e) := by
    rw [e1]
    simp only [List.cons_append, List.nil_append]
    rw [scan_inside, scan_inside, scan_inside, scan_inside, scan_inside] <;> decide
  have s3 := scan_sym hg n hsl s h1 (i + 2)
  rw [hr1, hd_of hl] at s3
  simp only [List.cons_append, List.nil_append, List.tail_cons] at s3
  have s4 : ∀ r, quoteOk r = true → scan g n (i + 2) s ⟨'"', 'C' :: '"' :: r⟩ = scan g n (i + 1) s ⟨'C', '"' :: r⟩ := by
    intro r hr
    rw [scan]
    have hs : Pos.skip ⟨'"', 'C' :: '"' :: r⟩ = ⟨'"', 'C' :: '"' :: r⟩ := rfl
    simp only [hs, topP_C hg n s hr]
  have s5 : ∀ r, scan g n (i + 1) s ⟨'C', '"' :: r⟩ = scan g n i s ⟨'"', r⟩ := fun r =>
    scan_sym hg n (by decide) s (at_sym (fun _ => none) 'C' '"' r rfl (by decide) (by decide)) i
  rw [s1, s2, s3, s4 _ hq, s5, ← e2]

/-- The scanner processes the declarations of a header, whatever follows them. -/
theorem scan_read {g : Gram} (hg : gramOk g = true) {doc : Doc} (hpk : doc.pack = g.pack) (n : Nat) {s s' : St} {ts : List Tk}
    (hh : CHeader g s ts s') : ∀ (x : Pos) (k : List Tk) (j : Nat), At doc x (ts ++ k) → ts.length ≤ n →
      x.rest.length < j → ((∀ u ∈ ts, u.w ≠ c%"\"C\"") ∨ quoteOk (advs x ts).rest = true) →
      ∃ j', (advs x ts).rest.length < j' ∧ scan g n j s x = scan g n j' s' (advs x ts) := by
  induction hh with
  | nil s => intro x k j _ _ hj _; exact ⟨j, hj, rfl⟩
  | stray s s' t ts ht _ ih =>
    intro x k j h hn hj hq
    simp only [List.length_cons] at hn
    have hl := At.adv_length h
    obtain ⟨j, rfl⟩ : ∃ i, j = i + 1 := ⟨j - 1, by omega⟩
    obtain ⟨c, hw, hc⟩ : ∃ c, t.w = [c] ∧ isIdC c = false := by
      simp only [List.mem_cons, List.not_mem_nil, or_false] at ht
      rcases ht with ht | ht | ht
      · exact ⟨_, ht, by decide⟩
      · exact ⟨_, ht, by decide⟩
      · exact ⟨_, ht, by decide⟩
    have e := scan_sym hg n (symOk_of hw hc) s h j
    rw [hd_of hw, ← List.drop_one, ← adv_sym hw] at e
    obtain ⟨j', hj', e'⟩ := ih (adv x t) k j (At.tail h) (by omega) (by omega)
      (hq.imp (fun h u hu => h u (by simp [hu])) (fun h => h))
    exact ⟨j', hj', by rw [e, e']; rfl⟩
  | linkage s s' e l ts he hl ht _ ih =>
    intro x k j h hn hj hq
    simp only [List.length_cons] at hn
    have hq : quoteOk (advs (adv (adv x e) l) ts).rest = true := hq.resolve_left (fun h => h l (by simp) hl)
    have h2 := At.tail (At.tail h)
    have hq' : quoteOk (adv (adv x e) l).rest = true :=
      at_quoteOk ts h2 hq ht
    obtain ⟨j1, hj1, e1⟩ := scan_linkage hg n he hl s h j hj hq'
    obtain ⟨j2, hj2, e2⟩ := ih _ k j1 h2 (by omega) hj1 (.inr hq)
    exact ⟨j2, hj2, by rw [e1, e2]; rfl⟩
  | cons s s1 s2 ts ts' ht _ ih =>
    intro x k j h hn hj hq
    simp only [List.append_assoc] at h
    simp only [List.length_append] at hn
    have hne := top_ne ht
    obtain ⟨j, rfl⟩ : ∃ i, j = i + 1 := ⟨j - 1, by omega⟩
    obtain ⟨t, tr, rfl⟩ : ∃ t tr, ts = t :: tr := by
      cases ts with
      | nil => simp at hne
      | cons t tr => exact ⟨t, tr, rfl⟩
    have h1 := topP_read hg (gram_reads hg hpk n) ht (by omega) (At.skip h)
    rw [advs_skip] at h1
    have hl := At.advs_length (t :: tr) h
    obtain ⟨j', hj', e⟩ := ih (advs x (t :: tr)) k j (At.drop (t :: tr) h) (by omega) (by omega)
      (hq.imp (fun h u hu => h u (by simp [hu])) (fun h => by rwa [advs_append] at h))
    refine ⟨j', by rw [advs_append]; exact hj', ?_⟩
    have hr := head_rest h
    cases hx : x.skip.rest with
    | nil => rw [hx] at hr; cases hr
    | cons c rest =>
      rw [advs_append, ← e]
      simp only [scan, hx, h1]

theorem skipWs_all : ∀ (s : Str) (p : Char), s.all isWhite = true → (skipWs p s).rest = []
  | [], _, _ => rfl
  | c :: s, p, h => by
    simp only [List.all_cons, Bool.and_eq_true] at h
    simp only [skipWs, h.1, if_true]
    exact skipWs_all s c h.2

theorem scan_end {g : Gram} (n j : Nat) (s : St) {x : Pos} (h : x.rest.all isWhite = true) :
    scan g n j s x = (s, none) := by
  cases j with
  | zero => rfl
  | succ j => simp only [scan, Pos.skip, skipWs_all _ _ h]

theorem lay_rest {doc : Doc} {x : Pos} (h : At doc x []) : x.rest = doc.tail := by
  unfold At at h
  generalize hr : x.rest = r at h
  cases h with
  | nil => rfl

/-- The text of a header is processed declaration by declaration. -/
theorem parseDefs_read {g : Gram} (hg : gramOk g = true) {tail text : Str} {s s' : St} {ts : List Tk}
    (hh : CHeader g s ts s') (hl : Lay ⟨tail, g.pack⟩ ' ' text ts) (ht : tail.all isWhite = true) :
    parseDefs g s text = (s', none) := by
  have h : At ⟨tail, g.pack⟩ ⟨' ', text⟩ (ts ++ []) := by simpa [At] using hl
  have hlen := At.length h
  simp only [List.append_nil] at hlen
  obtain ⟨j', _, e⟩ := scan_read hg rfl (text.length + 1) hh ⟨' ', text⟩ [] (text.length + 1) h (by
    omega) (by simp) (.inr (by rw [lay_rest (At.drop ts h)]; exact quoteOk_white ht))
  unfold parseDefs
  rw [e]
  refine scan_end _ _ _ ?_
  rw [lay_rest (At.drop ts h)]
  exact ht

end Pyclib
