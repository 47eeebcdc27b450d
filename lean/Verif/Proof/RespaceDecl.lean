import Verif.Proof.RespaceExpr
/-
Declarations do not depend on white space.
-/
namespace Pyclib
open Spec

attribute [local irreducible] exprP exprN delim

section
variable {pk pk' : Nat → Option Nat} {x y : Pos}

/-- Related elements with side effects. -/
def SRel (pk pk' : Nat → Option Nat) {α : Type} (p q : SP α) : Prop := ∀ s x y, PR pk pk' x y → SR pk pk' (p s x) (q s y)

/-- Related recursive elements. -/
structure RRel (pk pk' : Nat → Option Nat) (r r' : Rec) : Prop where
  type : SRel pk pk' r.type r'.type
  decl : SRel pk pk' r.decl r'.decl
  abs : SRel pk pk' r.abs r'.abs
  sh : RecSh r
  sh' : RecSh r'

theorem agreeS_refl {α : Type} (p : SP α) (n : Nat) : AgreeS p p n := fun _ _ _ => rfl

theorem recAgree_refl (r : Rec) (n : Nat) : RecAgree r r n := ⟨agreeS_refl _ _, agreeS_refl _ _, agreeS_refl _ _⟩

theorem SR.none (pk pk' : Nat → Option Nat) {α : Type} (s : Store DefVal) : SR pk pk' (α := α) (s, .none) (s, .none) := ⟨s, .inl ⟨rfl, rfl⟩⟩

theorem SR.some {α : Type} (s : Store DefVal) (a : α) (h : PR pk pk' x y) : SR pk pk' (s, .some (a, x)) (s, .some (a, y)) :=
  ⟨s, .inr ⟨a, x, y, rfl, rfl, h⟩⟩

theorem SR.of_or {α : Type} (s : Store DefVal) {o o' : Option (α × Pos)} (h : OR pk pk' o o') : SR pk pk' (s, o) (s, o') := by
  rcases h with ⟨h1, h2⟩ | ⟨a, u, v, h1, h2, hr⟩
  · rw [h1, h2]; exact SR.none ..
  · rw [h1, h2]; exact SR.some _ _ hr

theorem fundLoop_rel {cfg : Cfg} (hf : [] ∉ fundWords cfg) : ∀ (n : Nat) {x y : Pos}, PR pk pk' x y → TR pk pk' (fundLoop cfg n x) (fundLoop cfg n y)
  | 0, x, y, h => ⟨_, _, _, rfl, rfl, h⟩
  | n + 1, x, y, h => by
    rcases kwl_rel hf h with ⟨h1, h2⟩ | ⟨w, u, v, h1, h2, hr⟩
    · simp only [fundLoop, h1, h2]; exact ⟨_, _, _, rfl, rfl, h⟩
    · simp only [fundLoop, h1, h2]
      obtain ⟨a, u', v', e1, e2, hr⟩ := fundLoop_rel hf n hr
      rw [e1, e2]; exact ⟨_, _, _, rfl, rfl, hr⟩

theorem fundP_rel {cfg : Cfg} (hf : [] ∉ fundWords cfg) : PRel pk pk' (fundP cfg) (fundP cfg) := by
  intro x y h
  unfold fundP
  rcases kwl_rel hf h with ⟨h1, h2⟩ | ⟨w, u, v, h1, h2, hr⟩
  · simp only [h1, h2]; exact .inl ⟨rfl, rfl⟩
  · simp only [h1, h2]
    rw [fundLoop_fuel hf _ (both u v) u (Nat.le_refl _) (le_left u v), fundLoop_fuel hf _ (both u v) v (Nat.le_refl _) (le_right u v)]
    obtain ⟨a, u', v', e1, e2, hr⟩ := fundLoop_rel hf (both u v) hr
    rw [e1, e2]; exact .inr ⟨_, _, _, rfl, rfl, hr⟩

theorem modLoop_rel {mods : List Str} (hm : [] ∉ mods) : ∀ (n : Nat) {x y : Pos}, PR pk pk' x y → PR pk pk' (modLoop mods n x) (modLoop mods n y)
  | 0, x, y, h => h
  | n + 1, x, y, h => by
    rcases kwl_rel hm h with ⟨h1, h2⟩ | ⟨w, u, v, h1, h2, hr⟩
    · simp only [modLoop, h1, h2]; exact h
    · simp only [modLoop, h1, h2]
      exact modLoop_rel hm n ((nestedP_rel rfl rfl hr).getD hr)

theorem mods_rel {mods : List Str} (hm : [] ∉ mods) (h : PR pk pk' x y) : PR pk pk' (modLoop mods x.rest.length x) (modLoop mods y.rest.length y) := by
  rw [modLoop_fuel hm _ (both x y) x (Nat.le_refl _) (le_left x y), modLoop_fuel hm _ (both x y) y (Nat.le_refl _) (le_right x y)]
  exact modLoop_rel hm _ h

theorem commaLoopS_rel {α : Type} {p q : SP α} (hp : SRel pk pk' p q) : ∀ (n : Nat) (s : Store DefVal) {x y : Pos}, PR pk pk' x y →
    STR pk pk' (commaLoopS p n s x) (commaLoopS q n s y)
  | 0, s, x, y, h => ⟨_, _, _, _, rfl, rfl, h⟩
  | n + 1, s, x, y, h => by
    rcases lit_rel ',' h with ⟨h1, h2⟩ | ⟨u, v, h1, h2, hr⟩
    · simp only [commaLoopS, h1, h2]; exact ⟨_, _, _, _, rfl, rfl, h⟩
    · obtain ⟨s1, ⟨k1, k2⟩ | ⟨b, u', v', k1, k2, hr'⟩⟩ := hp s u v hr
      · simp only [commaLoopS, h1, h2, k1, k2]; exact ⟨_, _, _, _, rfl, rfl, h⟩
      · simp only [commaLoopS, h1, h2, k1, k2]
        obtain ⟨s2, a, u', v', e1, e2, hr⟩ := commaLoopS_rel hp n s1 hr'
        rw [e1, e2]; exact ⟨_, _, _, _, rfl, rfl, hr⟩

theorem delimitedS_rel {α : Type} {p q : SP α} (hs : ShS p) (hs' : ShS q) (hp : SRel pk pk' p q) : SRel pk pk' (delimitedS p) (delimitedS q) := by
  intro s x y h
  unfold delimitedS
  obtain ⟨s1, ⟨k1, k2⟩ | ⟨b, u, v, k1, k2, hr⟩⟩ := hp s x y h
  · simp only [k1, k2]; exact SR.none ..
  · simp only [k1, k2]
    rw [commaLoopS_fuel hs _ (both u v) s1 u (Nat.le_refl _) (le_left u v) (agreeS_refl p _),
      commaLoopS_fuel hs' _ (both u v) s1 v (Nat.le_refl _) (le_right u v) (agreeS_refl q _)]
    obtain ⟨s2, a, u', v', e1, e2, hr⟩ := commaLoopS_rel hp (both u v) s1 hr
    rw [e1, e2]; exact SR.some _ _ hr

theorem initP_rel (cfg : Cfg) (h : PR pk pk' x y) : TR pk pk' (initP cfg x) (initP cfg y) := by
  unfold initP
  rcases lit_rel '=' h with ⟨h1, h2⟩ | ⟨u, v, h1, h2, hr⟩
  · simp only [h1, h2]; exact ⟨_, _, _, rfl, rfl, h⟩
  · simp only [h1, h2]
    rcases exprP_rel cfg u v hr with ⟨h1, h2⟩ | ⟨e, u', v', h1, h2, hr'⟩
    · simp only [h1, h2]
      rcases (lit_rel '{' hr).bind (delimited_rel (exprP_len cfg) (exprP_rel cfg)) with ⟨h1, h2⟩ | ⟨es, u', v', h1, h2, hr'⟩
      · simp only [h1, h2]; exact ⟨_, _, _, rfl, rfl, h⟩
      · simp only [h1, h2]
        rcases delim_rel '}' hr' with ⟨h1, h2⟩ | ⟨u2, v2, h1, h2, hr2⟩
        · simp only [h1, h2]; exact ⟨_, _, _, rfl, rfl, h⟩
        · simp only [h1, h2]; exact ⟨_, _, _, rfl, rfl, hr2⟩
    · simp only [h1, h2]; exact ⟨_, _, _, rfl, rfl, hr'⟩

theorem storageP_rel (h : PR pk pk' x y) : PR pk pk' (storageP x) (storageP y) := by
  unfold storageP
  rcases kwl_rel (ws := storageWords) (by decide) h with ⟨h1, h2⟩ | ⟨w, u, v, h1, h2, hr⟩
  · simp only [h1, h2]; exact h
  · simp only [h1, h2]; exact hr

/-- Two grammars that differ in the packing, and in the names of types that failed. -/
structure GR (g g' : Gram) : Prop where
  cfg : g'.cfg = g.cfg
  mods : g'.mods = g.mods
  ev : g'.ev = g.ev
  junk : ∀ t t', Respaced g.pack g'.pack .free ';' t t' → g.junk t = g'.junk t'
  ne : NoEmpty g

end

section
variable {g g' : Gram} {r r' : Rec}

theorem declList_rel (hr : RRel g.pack g'.pack r r') : SRel g.pack g'.pack (delimitedS r.decl) (delimitedS r'.decl) :=
  delimitedS_rel hr.sh.decl hr.sh'.decl hr.decl

theorem varP_rel (hg : GR g g') (hr : RRel g.pack g'.pack r r') : SRel g.pack g'.pack (varP g r) (varP g' r') := by
  intro s x y h
  unfold varP
  obtain ⟨s1, ⟨k1, k2⟩ | ⟨⟨tq, tn⟩, u, v, k1, k2, h1⟩⟩ := hr.type s _ _ (storageP_rel h)
  · simp only [k1, k2]; exact SR.none ..
  · simp only [k1, k2]
    obtain ⟨s2, ⟨k1, k2⟩ | ⟨ds, u2, v2, k1, k2, h2⟩⟩ := declList_rel hr s1 _ _ h1
    · simp only [k1, k2, Option.getD_none, hg.cfg]
      obtain ⟨i, u3, v3, e1, e2, h3⟩ := initP_rel g.cfg h1
      simp only [e1, e2]
      rcases delim_rel ';' h3 with ⟨d1, d2⟩ | ⟨u4, v4, d1, d2, h4⟩
      · simp only [d1, d2]; exact SR.none ..
      · simp only [d1, d2]; exact SR.some _ _ h4
    · simp only [k1, k2, Option.getD_some, hg.cfg]
      obtain ⟨i, u3, v3, e1, e2, h3⟩ := initP_rel g.cfg h2
      simp only [e1, e2]
      rcases delim_rel ';' h3 with ⟨d1, d2⟩ | ⟨u4, v4, d1, d2, h4⟩
      · simp only [d1, d2]; exact SR.none ..
      · simp only [d1, d2]; exact SR.some _ _ h4

theorem optDecls_rel (hr : RRel g.pack g'.pack r r') (s : Store DefVal) {x y : Pos} (h : PR g.pack g'.pack x y) :
    STR g.pack g'.pack (optDecls r s x) (optDecls r' s y) := by
  unfold optDecls
  obtain ⟨s2, ⟨k1, k2⟩ | ⟨ds, u2, v2, k1, k2, h2⟩⟩ := declList_rel hr s _ _ h
  · simp only [k1, k2]; exact ⟨_, _, _, _, rfl, rfl, h⟩
  · simp only [k1, k2]; exact ⟨_, _, _, _, rfl, rfl, h2⟩

theorem width_rel {pk pk' : Nat → Option Nat} {x y : Pos} (h : PR pk pk' x y) :
    OR pk pk' ((delim ':' x).bind integerP) ((delim ':' y).bind integerP) := by
  rcases delim_num (.inr rfl) h with ⟨d1, d2⟩ | ⟨u, v, d1, d2, hn⟩
  · rw [d1, d2]; exact .inl ⟨rfl, rfl⟩
  · rw [d1, d2]; exact integerP_rel hn

theorem bitP_rel (hr : RRel g.pack g'.pack r r') : SRel g.pack g'.pack (bitP r) (bitP r') := by
  intro s x y h
  unfold bitP
  obtain ⟨s1, ⟨k1, k2⟩ | ⟨⟨tq, tn⟩, u, v, k1, k2, h1⟩⟩ := hr.type s _ _ h
  · simp only [k1, k2]; exact SR.none ..
  · simp only [k1, k2]
    obtain ⟨s2, ds, u2, v2, k1, k2, h2⟩ := optDecls_rel hr s1 h1
    simp only [k1, k2]
    rcases width_rel h2 with ⟨d1, d2⟩ | ⟨b, u3, v3, d1, d2, h3⟩
    · simp only [d1, d2]; exact SR.none ..
    · simp only [d1, d2]
      rcases delim_rel ';' h3 with ⟨d1, d2⟩ | ⟨u4, v4, d1, d2, h4⟩
      · simp only [d1, d2]; exact SR.none ..
      · simp only [d1, d2]; exact SR.some _ _ h4

theorem methodP_rel (hr : RRel g.pack g'.pack r r') : SRel g.pack g'.pack (methodP r) (methodP r') := by
  intro s x y h
  unfold methodP
  obtain ⟨s1, ⟨k1, k2⟩ | ⟨d, u, v, k1, k2, h1⟩⟩ := hr.decl s _ _ h
  · simp only [k1, k2]; exact SR.none ..
  · simp only [k1, k2]
    exact SR.of_or _ ((nestedP_rel rfl rfl h1).map _)

theorem typedMethodP_rel (hr : RRel g.pack g'.pack r r') : SRel g.pack g'.pack (typedMethodP r) (typedMethodP r') := by
  intro s x y h
  unfold typedMethodP
  obtain ⟨s1, ⟨k1, k2⟩ | ⟨d, u, v, k1, k2, h1⟩⟩ := hr.type s _ _ h
  · simp only [k1, k2]; exact SR.none ..
  · simp only [k1, k2]; exact methodP_rel hr s1 _ _ h1

theorem memberP_rel (hg : GR g g') (hr : RRel g.pack g'.pack r r') : SRel g.pack g'.pack (memberP g r) (memberP g' r') := by
  intro s x y h
  unfold memberP
  obtain ⟨s1, ⟨k1, k2⟩ | ⟨d, u, v, k1, k2, h1⟩⟩ := varP_rel hg hr s _ _ h
  · simp only [k1, k2]
    obtain ⟨s2, ⟨k1, k2⟩ | ⟨d, u, v, k1, k2, h1⟩⟩ := bitP_rel hr s1 _ _ h
    · simp only [k1, k2]
      obtain ⟨s3, ⟨k1, k2⟩ | ⟨d, u, v, k1, k2, h1⟩⟩ := typedMethodP_rel hr s2 _ _ h
      · simp only [k1, k2]
        obtain ⟨s4, ⟨k1, k2⟩ | ⟨d, u, v, k1, k2, h1⟩⟩ := methodP_rel hr s3 _ _ h
        · simp only [k1, k2]; exact SR.none ..
        · simp only [k1, k2]; exact SR.some _ _ h1
      · simp only [k1, k2]; exact SR.some _ _ h1
    · simp only [k1, k2]; exact SR.some _ _ h1
  · simp only [k1, k2]; exact SR.some _ _ h1

theorem memberLoop_rel (hg : GR g g') (hr : RRel g.pack g'.pack r r') : ∀ (n : Nat) (s : Store DefVal) {x y : Pos}, PR g.pack g'.pack x y →
    STR g.pack g'.pack (memberLoop g r n s x) (memberLoop g' r' n s y)
  | 0, s, x, y, h => ⟨_, _, _, _, rfl, rfl, h⟩
  | n + 1, s, x, y, h => by
    obtain ⟨s1, ⟨k1, k2⟩ | ⟨d, u, v, k1, k2, h1⟩⟩ := memberP_rel hg hr s _ _ h
    · simp only [memberLoop, k1, k2]; exact ⟨_, _, _, _, rfl, rfl, h⟩
    · simp only [memberLoop, k1, k2]
      obtain ⟨s2, a, u', v', e1, e2, hr⟩ := memberLoop_rel hg hr n s1 h1
      rw [e1, e2]; exact ⟨_, _, _, _, rfl, rfl, hr⟩

theorem bodyP_rel (hg : GR g g') (hr : RRel g.pack g'.pack r r') : SRel g.pack g'.pack (bodyP g r) (bodyP g' r') := by
  intro s x y h
  unfold bodyP
  rcases delim_rel '{' h with ⟨h1, h2⟩ | ⟨u, v, h1, h2, hu⟩
  · simp only [h1, h2]; exact SR.none ..
  · simp only [h1, h2]
    obtain ⟨s1, ⟨k1, k2⟩ | ⟨d, u, v, k1, k2, h1⟩⟩ := memberP_rel hg hr s _ _ hu
    · simp only [k1, k2]; exact SR.none ..
    · simp only [k1, k2]
      have l1 := le_left u v
      have l2 := le_right u v
      rw [memberLoop_fuel hr.sh _ (both u v + 1) s1 u (by omega) (by omega) (recAgree_refl r _),
        memberLoop_fuel hr.sh' _ (both u v + 1) s1 v (by omega) (by omega) (recAgree_refl r' _)]
      obtain ⟨s2, a, u', v', e1, e2, hr⟩ := memberLoop_rel hg hr (both u v + 1) s1 h1
      simp only [e1, e2]
      exact SR.of_or _ ((delim_rel '}' hr).map _)

theorem optIdent_rel {pk pk' : Nat → Option Nat} (cfg : Cfg) {x y : Pos} (h : PR pk pk' x y) : TR pk pk' (optIdent cfg x) (optIdent cfg y) := by
  unfold optIdent
  rcases identP_rel cfg h with ⟨h1, h2⟩ | ⟨i, u, v, h1, h2, hu⟩
  · simp only [h1, h2]; exact ⟨_, _, _, rfl, rfl, h⟩
  · simp only [h1, h2]; exact ⟨_, _, _, rfl, rfl, hu⟩

theorem structKw_rel {pk pk' : Nat → Option Nat} : PRel pk pk' structKw structKw := by
  intro x y h
  unfold structKw
  rcases keyword_rel (k := c%"struct") (by decide) h with ⟨h1, h2⟩ | ⟨u, v, h1, h2, hu⟩
  · simp only [h1, h2]
    exact (keyword_rel (k := c%"union") (by decide) h).map _
  · simp only [h1, h2]; exact .inr ⟨_, _, _, rfl, rfl, hu⟩

theorem pack_rel {pk pk' : Nat → Option Nat} {x y : Pos} (h : PR pk pk' x y) (hx : x.skip.rest ≠ []) :
    pk x.skip.rest.length = pk' y.skip.rest.length := by
  unfold PR at h
  generalize x.skip = x1 at h hx
  generalize y.skip = y1 at h
  cases h with
  | done p q => exact absurd rfl hx
  | char p q kx c t t' hc hp hsp hk hq h => exact hk

theorem structKw_text {x y : Pos} {u : Bool} (h : structKw x = some (u, y)) : x.skip.rest ≠ [] := by
  intro e
  simp [structKw, keyword, e] at h

theorem structP_rel (hg : GR g g') (hr : RRel g.pack g'.pack r r') : SRel g.pack g'.pack (structP g r) (structP g' r') := by
  intro s x y h
  unfold structP
  rcases structKw_rel x y h with ⟨h1, h2⟩ | ⟨b, u, v, h1, h2, hu⟩
  · simp only [h1, h2]; exact SR.none ..
  · have hk := pack_rel h (structKw_text h1)
    have fin : ∀ s name ms u v, PR g.pack g'.pack u v → SR g.pack g'.pack (structP.finish g s b name ms x u) (structP.finish g' s b name ms y v) := by
      intro s name ms u v huv
      unfold structP.finish
      rw [hg.ev, hk, hg.junk _ _ h.text]
      exact SR.some _ _ huv
    simp only [h1, h2, hg.cfg]
    obtain ⟨name, u2, v2, e1, e2, h2⟩ := optIdent_rel g.cfg hu
    simp only [e1, e2]
    obtain ⟨s1, ⟨k1, k2⟩ | ⟨ms, u3, v3, k1, k2, h3⟩⟩ := bodyP_rel hg hr s _ _ h2
    · simp only [k1, k2]
      rcases identP_rel g.cfg hu with ⟨h1, h2⟩ | ⟨i, u4, v4, h1, h2, h4⟩
      · simp only [h1, h2]; exact SR.none ..
      · simp only [h1, h2]; exact fin _ _ _ _ _ h4
    · simp only [k1, k2]; exact fin _ _ _ _ _ h3

theorem enumeratorP_rel {pk pk' : Nat → Option Nat} (cfg : Cfg) : PRel pk pk' (enumeratorP cfg) (enumeratorP cfg) := by
  intro x y h
  unfold enumeratorP
  rcases identP_rel cfg h with ⟨h1, h2⟩ | ⟨i, u, v, h1, h2, hu⟩
  · simp only [h1, h2]; exact .inl ⟨rfl, rfl⟩
  · simp only [h1, h2]
    rcases (lit_rel '=' hu).bind (exprP_rel cfg) with ⟨h1, h2⟩ | ⟨i, u, v, h1, h2, hu2⟩
    · simp only [h1, h2]; exact .inr ⟨_, _, _, rfl, rfl, hu⟩
    · simp only [h1, h2]; exact .inr ⟨_, _, _, rfl, rfl, hu2⟩

theorem enumBodyP_rel {pk pk' : Nat → Option Nat} (cfg : Cfg) : PRel pk pk' (enumBodyP cfg) (enumBodyP cfg) := by
  intro x y h
  unfold enumBodyP
  rcases (delim_rel '{' h).bind (delimited_rel (enumeratorP_len cfg) (enumeratorP_rel cfg)) with ⟨h1, h2⟩ | ⟨i, u, v, h1, h2, hu⟩
  · simp only [h1, h2]; exact .inl ⟨rfl, rfl⟩
  · simp only [h1, h2]
    exact (delim_rel '}' ((delim_rel ',' hu).getD hu)).map _

theorem enumP_rel (hg : GR g g') : SRel g.pack g'.pack (enumP g) (enumP g') := by
  intro s x y h
  unfold enumP
  rcases keyword_rel (k := c%"enum") (by decide) h with ⟨h1, h2⟩ | ⟨u, v, h1, h2, hu⟩
  · simp only [h1, h2]; exact SR.none ..
  · have fin : ∀ s name ms u v, PR g.pack g'.pack u v → SR g.pack g'.pack (enumP.finish g s name ms x u) (enumP.finish g' s name ms y v) := by
      intro s name ms u v huv
      unfold enumP.finish
      rw [hg.ev, hg.junk _ _ h.text]
      exact SR.some _ _ huv
    simp only [h1, h2, hg.cfg]
    obtain ⟨name, u2, v2, e1, e2, h2⟩ := optIdent_rel g.cfg hu
    simp only [e1, e2]
    rcases enumBodyP_rel g.cfg _ _ h2 with ⟨k1, k2⟩ | ⟨ms, u3, v3, k1, k2, h3⟩
    · simp only [k1, k2]
      rcases identP_rel g.cfg hu with ⟨h1, h2⟩ | ⟨i, u4, v4, h1, h2, h4⟩
      · simp only [h1, h2]; exact SR.none ..
      · simp only [h1, h2]; exact fin _ _ _ _ _ h4
    · simp only [k1, k2]; exact fin _ _ _ _ _ h3

theorem typeNameP_rel (hg : GR g g') (hr : RRel g.pack g'.pack r r') : SRel g.pack g'.pack (typeNameP g r) (typeNameP g' r') := by
  intro s x y h
  unfold typeNameP
  rw [hg.cfg]
  rcases fundP_rel hg.ne.fund x y h with ⟨h1, h2⟩ | ⟨i, u, v, h1, h2, hu⟩
  · simp only [h1, h2]
    rcases identP_rel g.cfg h with ⟨h1, h2⟩ | ⟨i, u, v, h1, h2, hu⟩
    · simp only [h1, h2]
      obtain ⟨s1, ⟨k1, k2⟩ | ⟨ms, u3, v3, k1, k2, h3⟩⟩ := structP_rel hg hr s _ _ h
      · simp only [k1, k2]; exact enumP_rel hg s1 _ _ h
      · simp only [k1, k2]; exact SR.some _ _ h3
    · simp only [h1, h2]; exact SR.some _ _ hu
  · simp only [h1, h2]; exact SR.some _ _ hu

theorem typeSpecP_rel (hg : GR g g') (hr : RRel g.pack g'.pack r r') : SRel g.pack g'.pack (typeSpecP g r) (typeSpecP g' r') := by
  intro s x y h
  unfold typeSpecP
  rw [hg.cfg, hg.mods]
  obtain ⟨q, u, v, e1, e2, hu⟩ := qualP_rel g.cfg h
  rw [e1, e2]
  obtain ⟨s1, ⟨k1, k2⟩ | ⟨n, u3, v3, k1, k2, h3⟩⟩ := typeNameP_rel hg hr s _ _ hu
  · simp only [k1, k2]; exact SR.none ..
  · simp only [k1, k2]; exact SR.some _ _ (mods_rel hg.ne.mods h3)

theorem convP_rel {pk pk' : Nat → Option Nat} {x y : Pos} (h : PR pk pk' x y) : TR pk pk' (convP x) (convP y) := by
  unfold convP
  rcases keyword_rel (k := c%"__cdecl") (by decide) h with ⟨h1, h2⟩ | ⟨u, v, h1, h2, hu⟩
  · simp only [h1, h2]
    rcases keyword_rel (k := c%"__stdcall") (by decide) h with ⟨h1, h2⟩ | ⟨u, v, h1, h2, hu⟩
    · simp only [h1, h2]; exact ⟨_, _, _, rfl, rfl, h⟩
    · simp only [h1, h2]; exact ⟨_, _, _, rfl, rfl, hu⟩
  · simp only [h1, h2]; exact ⟨_, _, _, rfl, rfl, hu⟩

theorem ptrLoop_rel {pk pk' : Nat → Option Nat} (cfg : Cfg) : ∀ (n : Nat) {x y : Pos}, PR pk pk' x y → TR pk pk' (ptrLoop cfg n x) (ptrLoop cfg n y)
  | 0, x, y, h => ⟨_, _, _, rfl, rfl, h⟩
  | n + 1, x, y, h => by
    rcases lit_rel '*' h with ⟨h1, h2⟩ | ⟨u, v, h1, h2, hu⟩
    · simp only [ptrLoop, h1, h2]; exact ⟨_, _, _, rfl, rfl, h⟩
    · simp only [ptrLoop, h1, h2]
      obtain ⟨q, u2, v2, e1, e2, h2⟩ := qualP_rel cfg hu
      simp only [e1, e2]
      obtain ⟨a, u', v', e1, e2, hr⟩ := ptrLoop_rel cfg n h2
      rw [e1, e2]; exact ⟨_, _, _, rfl, rfl, hr⟩

theorem ptrs_rel {pk pk' : Nat → Option Nat} (cfg : Cfg) {x y : Pos} (h : PR pk pk' x y) :
    TR pk pk' (ptrLoop cfg x.rest.length x) (ptrLoop cfg y.rest.length y) := by
  rw [ptrLoop_fuel _ (both x y) x (Nat.le_refl _) (le_left x y), ptrLoop_fuel _ (both x y) y (Nat.le_refl _) (le_right x y)]
  exact ptrLoop_rel cfg _ h

theorem arrayLoop_rel {pk pk' : Nat → Option Nat} (cfg : Cfg) : ∀ (n : Nat) {x y : Pos}, PR pk pk' x y →
    TR pk pk' (arrayLoop cfg n x) (arrayLoop cfg n y)
  | 0, x, y, h => ⟨_, _, _, rfl, rfl, h⟩
  | n + 1, x, y, h => by
    rcases lit_rel '[' h with ⟨h1, h2⟩ | ⟨u, v, h1, h2, hu⟩
    · rw [arrayLoop_succ, arrayLoop_succ]; simp only [h1, h2]; exact ⟨_, _, _, rfl, rfl, h⟩
    · rw [arrayLoop_succ, arrayLoop_succ]; simp only [h1, h2]
      obtain ⟨e, u2, v2, e1, e2, h2⟩ := (exprP_rel cfg _ _ hu).getD c%"-1" hu
      simp only [e1, e2]
      rcases delim_rel ']' h2 with ⟨h1, h2⟩ | ⟨u3, v3, h1, h2, h3⟩
      · simp only [h1, h2]; exact ⟨_, _, _, rfl, rfl, h⟩
      · simp only [h1, h2]
        obtain ⟨a, u', v', e1, e2, hr⟩ := arrayLoop_rel cfg n h3
        rw [e1, e2]; exact ⟨_, _, _, rfl, rfl, hr⟩

theorem arrays_rel {pk pk' : Nat → Option Nat} (cfg : Cfg) {x y : Pos} (h : PR pk pk' x y) :
    TR pk pk' (arrayLoop cfg x.rest.length x) (arrayLoop cfg y.rest.length y) := by
  rw [arrayLoop_fuel _ (both x y) x (Nat.le_refl _) (le_left x y), arrayLoop_fuel _ (both x y) y (Nat.le_refl _) (le_right x y)]
  exact arrayLoop_rel cfg _ h

theorem defaultP_rel {pk pk' : Nat → Option Nat} (cfg : Cfg) {x y : Pos} (h : PR pk pk' x y) : TR pk pk' (defaultP cfg x) (defaultP cfg y) := by
  unfold defaultP
  rcases (lit_rel '=' h).bind (exprP_rel cfg) with ⟨h1, h2⟩ | ⟨i, u, v, h1, h2, hu⟩
  · simp only [h1, h2]; exact ⟨_, _, _, rfl, rfl, h⟩
  · simp only [h1, h2]; exact ⟨_, _, _, rfl, rfl, hu⟩

theorem paramP_rel (hg : GR g g') (hr : RRel g.pack g'.pack r r') {dp dp' : SP Decl} (hd : SRel g.pack g'.pack dp dp') :
    SRel g.pack g'.pack (paramP g r dp) (paramP g' r' dp') := by
  intro s x y h
  unfold paramP
  obtain ⟨s1, ⟨k1, k2⟩ | ⟨⟨tq, tn⟩, u, v, k1, k2, h1⟩⟩ := hr.type s _ _ h
  · simp only [k1, k2]; exact SR.none ..
  · simp only [k1, k2]
    obtain ⟨s2, ⟨k1, k2⟩ | ⟨d, u, v, k1, k2, h1⟩⟩ := hd s1 _ _ h1
    · simp only [k1, k2]; exact SR.none ..
    · simp only [k1, k2, hg.cfg]
      obtain ⟨a, u', v', e1, e2, hr⟩ := defaultP_rel g.cfg h1
      rw [e1, e2]; exact SR.some _ _ hr

theorem argsP_rel (hg : GR g g') (hr : RRel g.pack g'.pack r r') {dp dp' : SP Decl} (hl : ShL dp) (hl' : ShL dp') (hd : SRel g.pack g'.pack dp dp')
    (s : Store DefVal) {x y : Pos} (h : PR g.pack g'.pack x y) : STR g.pack g'.pack (argsP g r dp s x) (argsP g' r' dp' s y) := by
  unfold argsP
  rcases lit_rel '(' h with ⟨h1, h2⟩ | ⟨u, v, h1, h2, hu⟩
  · simp only [h1, h2]; exact ⟨_, _, _, _, rfl, rfl, h⟩
  · simp only [h1, h2]
    obtain ⟨s1, ⟨k1, k2⟩ | ⟨ps, u2, v2, k1, k2, h2⟩⟩ :=
      delimitedS_rel (paramP_len hr.sh hl) (paramP_len hr.sh' hl') (paramP_rel hg hr hd) s _ _ hu
    · simp only [k1, k2, Option.getD_none]
      rcases delim_rel ')' hu with ⟨h1, h2⟩ | ⟨u3, v3, h1, h2, h3⟩
      · simp only [h1, h2]; exact ⟨_, _, _, _, rfl, rfl, h⟩
      · simp only [h1, h2]; exact ⟨_, _, _, _, rfl, rfl, h3⟩
    · simp only [k1, k2, Option.getD_some]
      rcases delim_rel ')' h2 with ⟨h1, h2⟩ | ⟨u3, v3, h1, h2, h3⟩
      · simp only [h1, h2]; exact ⟨_, _, _, _, rfl, rfl, h⟩
      · simp only [h1, h2]; exact ⟨_, _, _, _, rfl, rfl, h3⟩

theorem anyDecl_rel (hr : RRel g.pack g'.pack r r') : SRel g.pack g'.pack (anyDecl r) (anyDecl r') := by
  intro s x y h
  unfold anyDecl
  obtain ⟨s1, ⟨k1, k2⟩ | ⟨d, u, v, k1, k2, h1⟩⟩ := hr.decl s _ _ h
  · simp only [k1, k2]; exact hr.abs s1 _ _ h
  · simp only [k1, k2]; exact SR.some _ _ h1

theorem refName_rel (hg : GR g g') : PRel g.pack g'.pack (declCoreP.refName g) (declCoreP.refName g') := by
  intro x y h
  unfold declCoreP.refName
  rw [hg.cfg]
  have key : ∀ (b : Bool) {u v : Pos}, PR g.pack g'.pack u v →
      OR g.pack g'.pack ((identP g.cfg u).map (fun p => ((b, Core.name p.1), p.2))) ((identP g.cfg v).map (fun p => ((b, Core.name p.1), p.2))) := by
    intro b u v hu
    rcases identP_rel g.cfg hu with ⟨h1, h2⟩ | ⟨i, u, v, h1, h2, hu⟩
    · rw [h1, h2]; exact .inl ⟨rfl, rfl⟩
    · rw [h1, h2]; exact .inr ⟨_, _, _, rfl, rfl, hu⟩
  rcases lit_rel '&' h with ⟨h1, h2⟩ | ⟨u, v, h1, h2, hu⟩
  · simp only [h1, h2]; exact key _ h
  · simp only [h1, h2]; exact key _ hu

theorem declCoreP_rel (hg : GR g g') (hr : RRel g.pack g'.pack r r') : SRel g.pack g'.pack (declCoreP g r) (declCoreP g' r') := by
  intro s x y h
  unfold declCoreP
  rcases refName_rel hg _ _ h with ⟨h1, h2⟩ | ⟨i, u, v, h1, h2, hu⟩
  · simp only [h1, h2]
    rcases lit_rel '(' h with ⟨h1, h2⟩ | ⟨u, v, h1, h2, hu⟩
    · simp only [h1, h2]; exact SR.none ..
    · simp only [h1, h2]
      obtain ⟨s1, ⟨k1, k2⟩ | ⟨d, u, v, k1, k2, h1⟩⟩ := hr.decl s _ _ hu
      · simp only [k1, k2]; exact SR.none ..
      · simp only [k1, k2]; exact SR.of_or _ ((delim_rel ')' h1).map _)
  · simp only [h1, h2]; exact SR.some _ _ hu

theorem declP_rel (hg : GR g g') (hr : RRel g.pack g'.pack r r') : SRel g.pack g'.pack (declP g r) (declP g' r') := by
  intro s x y h
  unfold declP
  simp only [hg.cfg]
  obtain ⟨q, u, v, e1, e2, hu⟩ := qualP_rel g.cfg h
  simp only [e1, e2]
  obtain ⟨c, u, v, e1, e2, hu⟩ := convP_rel hu
  simp only [e1, e2]
  obtain ⟨p, u, v, e1, e2, hu⟩ := ptrs_rel g.cfg hu
  simp only [e1, e2]
  obtain ⟨s1, ⟨k1, k2⟩ | ⟨⟨ref, core⟩, u, v, k1, k2, h1⟩⟩ := declCoreP_rel hg hr s _ _ hu
  · simp only [k1, k2]; exact SR.none ..
  · simp only [k1, k2]
    obtain ⟨s2, ⟨b, as⟩, u, v, e1, e2, h2⟩ := argsP_rel hg hr (anyDecl_len hr.sh) (anyDecl_len hr.sh') (anyDecl_rel hr) s1 h1
    simp only [e1, e2]
    obtain ⟨a, u, v, e1, e2, hu⟩ := arrays_rel g.cfg h2
    simp only [e1, e2]
    exact SR.some _ _ hu

theorem absP_rel (hg : GR g g') (hr : RRel g.pack g'.pack r r') : SRel g.pack g'.pack (absP g r) (absP g' r') := by
  intro s x y h
  unfold absP
  simp only [hg.cfg]
  obtain ⟨q, u, v, e1, e2, hu⟩ := qualP_rel g.cfg h
  simp only [e1, e2]
  obtain ⟨p, u, v, e1, e2, hu⟩ := ptrs_rel g.cfg hu
  simp only [e1, e2]
  have key : ∀ (b : Bool) {u v : Pos}, PR g.pack g'.pack u v →
      SR g.pack g'.pack
        (match argsP g r r.abs s u with
          | (s, ((h, as), z)) => (s, some (Decl.mk q none p b .abs h as (arrayLoop g.cfg z.rest.length z).1, (arrayLoop g.cfg z.rest.length z).2)))
        (match argsP g' r' r'.abs s v with
          | (s, ((h, as), z)) => (s, some (Decl.mk q none p b .abs h as (arrayLoop g.cfg z.rest.length z).1, (arrayLoop g.cfg z.rest.length z).2))) := by
    intro b u v hu
    obtain ⟨s2, ⟨b, as⟩, u, v, e1, e2, h2⟩ := argsP_rel hg hr hr.sh.abs hr.sh'.abs hr.abs s hu
    simp only [e1, e2]
    obtain ⟨a, u, v, e1, e2, hu⟩ := arrays_rel g.cfg h2
    simp only [e1, e2]
    exact SR.some _ _ hu
  rcases lit_rel '&' hu with ⟨h1, h2⟩ | ⟨u, v, h1, h2, hu⟩
  · simp only [h1, h2]; exact key false ‹_›
  · simp only [h1, h2]; exact key true hu

theorem GR.ne' (hg : GR g g') : NoEmpty g' := ⟨by rw [hg.cfg]; exact hg.ne.fund, by rw [hg.mods]; exact hg.ne.mods⟩

theorem gram_rel (hg : GR g g') : ∀ n, RRel g.pack g'.pack (gram g n) (gram g' n)
  | 0 => ⟨fun s _ _ _ => SR.none .., fun s _ _ _ => SR.none .., fun s _ _ _ => SR.none .., gram_len hg.ne 0, gram_len hg.ne' 0⟩
  | n + 1 => by
    have hr := gram_rel hg n
    exact ⟨typeSpecP_rel hg hr, declP_rel hg hr, absP_rel hg hr, gram_len hg.ne (n + 1), gram_len hg.ne' (n + 1)⟩

/-! ### Top level -/

theorem typedefP_rel (hr : RRel g.pack g'.pack r r') : SRel g.pack g'.pack (typedefP r) (typedefP r') := by
  intro s x y h
  unfold typedefP
  rcases keyword_rel (k := c%"typedef") (by decide) h with ⟨h1, h2⟩ | ⟨u, v, h1, h2, hu⟩
  · simp only [h1, h2]; exact SR.none ..
  · simp only [h1, h2]
    obtain ⟨s1, ⟨k1, k2⟩ | ⟨t, u, v, k1, k2, h1⟩⟩ := hr.type s _ _ hu
    · simp only [k1, k2]; exact SR.none ..
    · simp only [k1, k2]
      obtain ⟨s2, ⟨k1, k2⟩ | ⟨ds, u2, v2, k1, k2, h2⟩⟩ := declList_rel hr s1 _ _ h1
      · simp only [k1, k2]; exact SR.none ..
      · simp only [k1, k2]; exact SR.of_or _ ((delim_rel ';' h2).map _)

theorem functionP_rel (hr : RRel g.pack g'.pack r r') : SRel g.pack g'.pack (functionP r) (functionP r') := by
  intro s x y h
  unfold functionP
  obtain ⟨s1, ⟨k1, k2⟩ | ⟨t, u, v, k1, k2, h1⟩⟩ := hr.type s _ _ (storageP_rel h)
  · simp only [k1, k2]; exact SR.none ..
  · simp only [k1, k2]
    obtain ⟨s2, ⟨k1, k2⟩ | ⟨d, u2, v2, k1, k2, h2⟩⟩ := hr.decl s1 _ _ h1
    · simp only [k1, k2]; exact SR.none ..
    · simp only [k1, k2]; exact SR.of_or _ ((nestedP_rel rfl rfl h2).map _)

/-- Related outcomes at the top level. -/
def TopR (pk pk' : Nat → Option Nat) (p q : Store DefVal × Top) : Prop :=
  ∃ s, (p = (s, .fail) ∧ q = (s, .fail)) ∨ (∃ e, p = (s, .raised e) ∧ q = (s, .raised e)) ∨ ∃ u v, p = (s, .next u) ∧ q = (s, .next v) ∧ PR pk pk' u v

theorem topP_rel (hg : GR g g') (hr : RRel g.pack g'.pack r r') (s : Store DefVal) {x y : Pos} (h : PR g.pack g'.pack x y) :
    TopR g.pack g'.pack (topP g r s x) (topP g' r' s y) := by
  unfold topP
  rw [hg.ev]
  obtain ⟨s1, ⟨k1, k2⟩ | ⟨⟨⟨tq, tn⟩, ds⟩, u, v, k1, k2, h1⟩⟩ := typedefP_rel hr s _ _ h
  · simp only [k1, k2]
    obtain ⟨s2, ⟨k1, k2⟩ | ⟨d, u, v, k1, k2, h1⟩⟩ := varP_rel hg hr s1 _ _ h
    · simp only [k1, k2]
      obtain ⟨s3, ⟨k1, k2⟩ | ⟨⟨⟨tq, tn⟩, d⟩, u, v, k1, k2, h1⟩⟩ := functionP_rel hr s2 _ _ h
      · simp only [k1, k2]; exact ⟨_, .inl ⟨rfl, rfl⟩⟩
      · simp only [k1, k2]; exact ⟨_, .inr (.inr ⟨_, _, rfl, rfl, h1⟩)⟩
    · simp only [k1, k2]; exact ⟨_, .inr (.inr ⟨_, _, rfl, rfl, h1⟩)⟩
  · simp only [k1, k2]
    cases procTypedef g.ev s1 tq tn ds with
    | mk s2 o =>
      cases o with
      | none => exact ⟨_, .inr (.inr ⟨_, _, rfl, rfl, h1⟩)⟩
      | some e => exact ⟨_, .inr (.inl ⟨e, rfl, rfl⟩)⟩

theorem scan_rel (hg : GR g g') (n : Nat) : ∀ (k : Nat) (s : Store DefVal) {x y : Pos}, PR g.pack g'.pack x y → scan g n k s x = scan g' n k s y
  | 0, s, x, y, _ => rfl
  | k + 1, s, x, y, h => by
    have ht := topP_rel hg (gram_rel hg n) s h.skip
    unfold scan
    unfold PR at h
    generalize x.skip = x1 at h ht
    generalize y.skip = y1 at h ht
    cases h with
    | done p q => rfl
    | char p q kx c t t' hc hp hsp hk hq h =>
      simp only
      obtain ⟨s1, ⟨k1, k2⟩ | ⟨e, k1, k2⟩ | ⟨u, v, k1, k2, hu⟩⟩ := ht
      · simp only [k1, k2]; exact scan_rel hg n k s1 h.pos
      · simp only [k1, k2]
      · simp only [k1, k2]; exact scan_rel hg n k s1 hu

/-- The definitions of related texts. -/
theorem parseDefs_rel (hg : GR g g') (s : Store DefVal) {t t' : Str} (h : Respaced g.pack g'.pack .free ' ' t t') :
    parseDefs g s t = parseDefs g' s t' := by
  unfold parseDefs
  rw [scan_fuel hg.ne _ (t.length + t'.length + 1) _ (t.length + t'.length + 1) s ⟨' ', t⟩ (by simp only; omega) (by simp only; omega)
      (by simp only; omega) (by simp only; omega),
    scan_fuel hg.ne' _ (t.length + t'.length + 1) _ (t.length + t'.length + 1) s ⟨' ', t'⟩ (by simp only; omega) (by simp only; omega)
      (by simp only; omega) (by simp only; omega)]
  exact scan_rel hg _ _ s h.pos

end

end Pyclib
