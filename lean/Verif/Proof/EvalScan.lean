import Verif.Proof.EvalTok
import Verif.Proof.GrammarType
/-
Proof that the replacement of numbers and casts in `CParser.eval` only drops the suffixes of numbers in
the text of an expression of the fragment.
-/
namespace Pyclib

open Spec

/-- No expression begins with `=`. -/
theorem exprP_eq (cfg : Cfg) (s : Str) : exprP cfg ⟨'=', '=' :: s⟩ = none := by
  have hl : oneOfP leftOps ⟨'=', '=' :: s⟩ = none := by rfl
  have hi : identP cfg ⟨'=', '=' :: s⟩ = none := by
    have e : Pos.skip ⟨'=', '=' :: s⟩ = ⟨'=', '=' :: s⟩ := rfl
    have h1 : isIdC '=' = false := by decide
    have h2 : isIdentStart '=' = false := by decide
    simp [identP, e, h1, h2]
  have hn : numberP ⟨'=', '=' :: s⟩ = none := by
    have : At ⟨s, fun _ => none⟩ ⟨' ', '=' :: s⟩ [⟨c%"=", none⟩] :=
      Lay.cons (doc := ⟨s, fun _ => none⟩) ' ' [] '=' [] s [] none rfl (by decide) (.inr (by decide)) (fun _ _ => rfl)
        (.nil _)
    exact numberP_sym (x := ⟨' ', '=' :: s⟩) this (by decide)
  have hq : quotedTok ⟨'=', '=' :: s⟩ = none := by rfl
  have hp : lit '(' ⟨'=', '=' :: s⟩ = none := by rfl
  have hc : coreP cfg (exprN cfg (s.length + 1)) ⟨'=', '=' :: s⟩ = none := by
    unfold coreP
    simp only [hi, hn, hq, hp, Option.bind_none]
  have hcast : castP cfg ⟨'=', '=' :: s⟩ = ⟨'=', '=' :: s⟩ := by
    unfold castP
    rw [hp]
    rfl
  unfold exprP
  rw [exprN_succ]
  unfold atomP atomEnd
  simp only [opsLoop_no hl, hcast, hc, Option.or_none, List.length_cons]

attribute [local irreducible] exprP exprN delim

/-- Binary operators of the fragment. -/
def kBins : List Str := [c%"|", c%"^", c%"&", c%"<<", c%">>", c%"+", c%"-", c%"*", c%"%",
  c%"==", c%"!=", c%"<", c%">", c%"<=", c%">="]

/-- An operand can begin with the token. -/
def OpStart (g : Gram) (w : Str) : Prop :=
  identOk g w = true ∨ ((∃ v, intTok w v) ∧ w ∉ keywords g.cfg) ∨ w ∈ [c%"+", c%"-", c%"~", c%"("]

/-- What stands after an opening parenthesis is not a cast. -/
def CastSafe (g : Gram) (k : List Str) : Prop :=
  ∃ t u k', k = t :: u :: k' ∧ OpStart g t ∧
    (identOk g t = true → u ∈ kBins ∧ ∃ t' u' k'', k' = t' :: u' :: k'' ∧ OpStart g t')

/-- No casts. -/
def Clean (g : Gram) : List Str → Prop
  | [] => True
  | w :: k => (w = c%"(" → CastSafe g k) ∧ Clean g k

theorem opStart_hd {g : Gram} {t : Tk} (h : OpStart g t.w) :
    t.hd ≠ '*' ∧ t.hd ≠ '&' ∧ t.hd ≠ '[' ∧ t.hd ≠ ')' ∧ t.hd ≠ '=' ∧ t.hd ≠ ',' ∧ t.hd ≠ '"' ∧ t.hd ≠ '\'' := by
  rcases h with h | ⟨⟨v, h⟩, _⟩ | h
  · have h := (identOk_spec h).word
    refine ⟨?_, ?_, ?_, ?_, ?_, ?_, ?_, ?_⟩ <;> exact word_hd_ne h (by decide)
  · have h := intTok_word h
    refine ⟨?_, ?_, ?_, ?_, ?_, ?_, ?_, ?_⟩ <;> exact word_hd_ne h (by decide)
  · have := hd_mem h
    generalize t.hd = c at this
    revert c
    decide

theorem opStart_plain {g : Gram} {t : Tk} {k : List Tk} (h : OpStart g t.w) (hk : k ≠ []) : Plain g t k := by
  rcases h with h | ⟨⟨v, h⟩, h2⟩ | h
  · exact ident_plain h hk
  · refine .inr ⟨intTok_word h, hk, fun e => h2 (qual_keyword _ e), .inr ?_⟩
    have := intTok_hd h
    cases e : t.w with
    | nil => rfl
    | cons c w =>
      rw [hd_of e] at this
      have : c ≠ '_' := by rintro rfl; exact absurd this (by decide)
      simp [startsWith, this]
  · have := hd_mem h
    refine .inl ?_
    unfold symOk
    generalize t.hd = c at this
    revert c
    decide

theorem typeSpecP_num {g : Gram} (hg : gramOk g = true) {doc : Doc} {rc : Rec} {t : Tk} {k : List Tk} {v : Str}
    (ht : intTok t.w v) (hk : k ≠ []) (hn : t.w ∉ keywords g.cfg) (s : St) {x : Pos} (h : At doc x (t :: k)) :
    typeSpecP g rc s x = (s, none) := by
  have r1 := qualP_read (g := g) (q := []) h .nil
    (opStart_plain (.inr (.inl ⟨⟨v, ht⟩, hn⟩)) hk) (by intro a b h; cases h)
  simp only [advs] at r1
  have hw := intTok_word ht
  have h1 : t.w ∉ fundWords g.cfg := fun e => hn (fund_keyword e)
  have key : ∀ w : Str, w.head?.any isIdentStart = true → t.w ≠ w := by
    intro w hw e
    have h1 := digit_start (intTok_hd ht)
    subst e
    cases e : t.w with
    | nil => rw [e] at hw; simp at hw
    | cons c w => rw [e] at hw; rw [hd_of e] at h1; simp [h1] at hw
  simp only [typeSpecP, r1, typeNameP, fundP_word h hk hw h1, identP_num h hk ht, structP, structKw,
    keyword_word h hk hw, if_neg (key c%"struct" (by decide)), if_neg (key c%"union" (by decide)), enumP,
    if_neg (key c%"enum" (by decide)), Option.map_none]

/-- After an opening parenthesis at `y` there is no cast and no parameter. -/
def CF (g : Gram) (y : Pos) : Prop :=
  lit ')' y = none ∧ delim ')' y = none ∧
  ∀ n s s' q z, (gram g n).type s y = (s', some (q, z)) →
    ∀ m s1 s2 d u, (gram g m).abs s1 z = (s2, some (d, u)) → delim ')' u = none ∧ defaultP g.cfg u = (none, u) ∧ lit ',' u = none

theorem CF.args {g : Gram} {x y : Pos} (h : CF g y) (hx : lit '(' x = some y) (n : Nat) (s : St) :
    ∃ s', argsP g (gram g n) (gram g n).abs s x = (s', ((false, .nil), x)) := by
  obtain ⟨_, h1, h2⟩ := h
  unfold argsP
  simp only [hx]
  cases hp : delimitedS (paramP g (gram g n) (gram g n).abs) s y with
  | mk s3 o =>
    cases o with
    | none => simp only [Option.getD_none, h1]; exact ⟨_, rfl⟩
    | some p =>
      obtain ⟨ps, z⟩ := p
      have key : delim ')' z = none := by
        unfold delimitedS at hp
        cases hq : paramP g (gram g n) (gram g n).abs s y with
        | mk s4 o =>
          cases o with
          | none => rw [hq] at hp; cases hp
          | some p =>
            obtain ⟨a, w⟩ := p
            rw [hq] at hp
            unfold paramP at hq
            cases ht : (gram g n).type s y with
            | mk s5 o =>
              rw [ht] at hq
              cases o with
              | none => cases hq
              | some p =>
                obtain ⟨⟨tq, tn⟩, z1⟩ := p
                simp only at hq
                cases ha : (gram g n).abs s5 z1 with
                | mk s6 o =>
                  rw [ha] at hq
                  cases o with
                  | none => cases hq
                  | some p =>
                    obtain ⟨d, z2⟩ := p
                    obtain ⟨k1, k2, k3⟩ := h2 n s s5 _ z1 ht n s5 s6 d z2 ha
                    simp only [k2, Prod.mk.injEq, Option.some.injEq] at hq
                    obtain ⟨rfl, rfl, rfl⟩ := hq
                    simp only at hp
                    have hcl : commaLoopS (paramP g (gram g n) (gram g n).abs) z2.rest.length s6 z2 = (s6, ([], z2)) := by
                      cases z2.rest.length with
                      | zero => rfl
                      | succ m => simp only [commaLoopS, k3]
                    rw [hcl] at hp
                    cases hp
                    exact k1
      simp only [Option.getD_some, key]
      exact ⟨_, rfl⟩

theorem bin_hd {t : Tk} (h : t.w ∈ kBins) : t.hd ≠ ')' ∧ (t.hd = '=' → t.w = c%"==") ∧ t.hd ≠ ',' ∧ t.hd ≠ '"' ∧ t.hd ≠ '\'' ∧
    t.hd ≠ '(' ∧ t.hd ≠ '[' ∧ t.hd ≠ '{' ∧ symOk t = true := by
  unfold symOk Tk.hd
  generalize t.w = w at h
  revert w
  decide

theorem end_facts {doc : Doc} {x : Pos} {t : Tk} {k : List Tk} (h : At doc x (t :: k))
    (ht : t.hd ≠ ')' ∧ (t.hd = '=' → t.w = c%"==") ∧ t.hd ≠ ',' ∧ t.hd ≠ '"' ∧ t.hd ≠ '\'') (cfg : Cfg) :
    delim ')' x = none ∧ defaultP cfg x = (none, x) ∧ lit ',' x = none := by
  refine ⟨delim_no h ht.1 ⟨ht.2.2.2.1, ht.2.2.2.2⟩, ?_, lit_no h ht.2.2.1⟩
  unfold defaultP
  by_cases he : t.hd = '='
  · have hr := h.start.rest
    rw [ht.2.1 he] at hr
    have hl : lit '=' x = some ⟨'=', '=' :: (adv x t).rest⟩ := by
      unfold lit
      rw [hr]
      rfl
    rw [hl, Option.bind_some, exprP_eq]
  · rw [lit_no h he]
    rfl

theorem ptr_one {g : Gram} (star : Tk) (h : star.w = c%"*") : Ptrs g [star] [[]] := by
  have := Ptrs.cons (g := g) star [] [] [] [] h .nil .nil
  simpa using this

theorem joins_star {g : Gram} (hg : gramOk g = true) {star : Tk} (h : star.w = c%"*") {k : List Tk} : Joins g [star] k := by
  intro a b h1 h2 _ _
  simp only [List.getLast?_singleton, Option.some.injEq] at h1
  subst h1
  rw [h] at h2
  rcases h2 with h2 | h2
  · exact absurd (gramOk_mod hg h2).1 (by decide)
  · exact absurd (attrOk_spec h2).1 (by decide)

/-- No cast in the text of an expression. -/
theorem castFail {g : Gram} (hg : gramOk g = true) {doc : Doc} (hpk : doc.pack = g.pack) :
    ∀ (N : Nat) (K : List Tk) (y : Pos), K.length ≤ N → At doc y K → CastSafe g (K.map Tk.w) →
      Clean g (K.map Tk.w) → CF g y := by
  intro N
  induction N with
  | zero =>
    intro K y hN _ hs _
    obtain ⟨t, u, k', e, _⟩ := hs
    have : K = [] := List.length_eq_zero_iff.1 (by omega)
    subst this
    cases e
  | succ N ih =>
    intro K y hN hat hs hc
    obtain ⟨t0, u0, k0, e, hst, hid⟩ := hs
    cases K with
    | nil => cases e
    | cons t K =>
      cases K with
      | nil => cases e
      | cons u k =>
        simp only [List.map_cons, List.cons.injEq] at e
        obtain ⟨rfl, rfl, rfl⟩ := e
        obtain ⟨f1, f2, f3, f4, f5, f6, f7, f8⟩ := opStart_hd hst
        refine ⟨lit_no hat f4, delim_no hat f4 ⟨f7, f8⟩, ?_⟩
        intro n s s' q z ht
        cases n with
        | zero => cases ht
        | succ n =>
          rw [gram_succ] at ht
          simp only at ht
          rcases hst with hst | ⟨⟨v, hst⟩, hkw⟩ | hst
          · obtain ⟨hu, t', u', k'', e, hst'⟩ := hid hst
            have hbin := bin_hd hu
            have hk : AfterType g (u :: k) :=
              ⟨hbin.2.2.2.2.2.2.2.1, hbin.2.2.2.1, hbin.2.2.2.2.1, .inl hbin.2.2.2.2.2.2.2.2⟩
            have hr : RecReads g doc (gram g n) n := gram_reads hg hpk n
            have hty := typeSpecP_read (ts := [t]) hg hpk hr (CSpec.mk s s [] [t] [] [] t.w .nil (.ident s t hst) .nil)
              (by simp) hat hk (joins_hd hbin.2.2.2.2.2.1)
            rw [hty] at ht
            simp only [Prod.mk.injEq, Option.some.injEq] at ht
            obtain ⟨rfl, _, rfl⟩ := ht
            have h1 : At doc (adv y t) (u :: k) := At.tail hat
            intro m s1 s2 d w ha
            show _
            cases m with
            | zero => cases ha
            | succ m =>
              rw [gram_succ] at ha
              simp only [absP, advs] at ha
              cases k with
              | nil => cases e
              | cons a k =>
                cases k with
                | nil => cases e
                | cons b k =>
                  simp only [List.map_cons, List.cons.injEq] at e
                  obtain ⟨rfl, rfl, rfl⟩ := e
                  obtain ⟨e1, e2, e3, e4, e5, e6, e7, e8⟩ := opStart_hd hst'
                  have hfin : ∀ z, At doc z (a :: b :: k) → ∃ s', argsP g (gram g m) (gram g m).abs s1 z =
                      (s', ((false, .nil), z)) := by
                    intro z hz
                    by_cases hp : a.w = c%"("
                    · have hl := lit_yes hz hp
                      refine CF.args (ih (b :: k) (adv z a) ?_ (At.tail hz) ?_ ?_) hl m s1
                      · simp only [List.length_cons] at hN ⊢; omega
                      · simp only [List.map_cons, Clean] at hc
                        exact hc.2.2.1 hp
                      · simp only [List.map_cons, Clean] at hc
                        exact hc.2.2.2
                    · refine ⟨s1, argsP_none hz ?_ s1⟩
                      intro e
                      rcases hst' with h | ⟨⟨v, h⟩, _⟩ | h
                      · exact word_hd_ne (identOk_spec h).word (by decide) e
                      · exact word_hd_ne (intTok_word h) (by decide) e
                      · simp only [List.mem_cons, List.not_mem_nil, or_false] at h
                        rcases h with h | h | h | h
                        · rw [hd_of h] at e; exact absurd e (by decide)
                        · rw [hd_of h] at e; exact absurd e (by decide)
                        · rw [hd_of h] at e; exact absurd e (by decide)
                        · exact hp h
                  have hend : ∀ z, At doc z (a :: b :: k) → delim ')' z = none ∧ defaultP g.cfg z = (none, z) ∧ lit ',' z = none :=
                    fun z hz => end_facts hz ⟨e4, fun e => absurd e e5, e6, e7, e8⟩ _
                  by_cases hstar : u.w = c%"*"
                  · obtain ⟨r1, r2⟩ := qual_ptr_read (g := g) (t := a) (k := b :: k) (q := []) e1
                      (opStart_plain hst' (by simp)) .nil (ptr_one u hstar) h1 (joins_star hg hstar)
                    simp only [advs] at r1 r2
                    have h2 := At.tail h1
                    obtain ⟨s3, h3⟩ := hfin _ h2
                    simp only [r1, r2, lit_no h2 e2, Option.getD_none, h3, arrayLoop_stop h2 e3, Prod.mk.injEq,
                      Option.some.injEq] at ha
                    rw [← ha.2.2]
                    exact hend _ h2
                  · have r1 := qualP_read (g := g) (q := []) h1 .nil (plain_sym hbin.2.2.2.2.2.2.2.2) (by intro a b h; cases h)
                    simp only [advs] at r1
                    have hns : u.hd ≠ '*' := by
                      intro e
                      have hu' := hu
                      simp only [kBins, List.mem_cons, List.not_mem_nil, or_false] at hu'
                      rcases hu' with h | h | h | h | h | h | h | h | h | h | h | h | h | h | h <;>
                        first | exact hstar h | (rw [hd_of h] at e; exact absurd e (by decide))
                    by_cases hamp : u.w = c%"&"
                    · have h2 := At.tail h1
                      obtain ⟨s3, h3⟩ := hfin _ h2
                      simp only [r1, ptrLoop_stop h1 hns, lit_yes h1 hamp, Option.getD_some, h3,
                        arrayLoop_stop h2 e3, Prod.mk.injEq, Option.some.injEq] at ha
                      rw [← ha.2.2]
                      exact hend _ h2
                    · have hna : u.hd ≠ '&' := by
                        intro e
                        have hu' := hu
                        simp only [kBins, List.mem_cons, List.not_mem_nil, or_false] at hu'
                        rcases hu' with h | h | h | h | h | h | h | h | h | h | h | h | h | h | h <;>
                          first | exact hamp h | (rw [hd_of h] at e; exact absurd e (by decide))
                      simp only [r1, ptrLoop_stop h1 hns, lit_no h1 hna, Option.getD_none,
                        argsP_none h1 hbin.2.2.2.2.2.1, arrayLoop_stop h1 hbin.2.2.2.2.2.2.1, Prod.mk.injEq,
                        Option.some.injEq] at ha
                      rw [← ha.2.2]
                      exact end_facts h1 ⟨hbin.1, hbin.2.1, hbin.2.2.1, hbin.2.2.2.1, hbin.2.2.2.2.1⟩ _
          · rw [typeSpecP_num hg hst (by simp) hkw s hat] at ht
            cases ht
          · have hsym : symOk t = true := by
              have := hd_mem hst
              unfold symOk
              generalize t.hd = c at this
              revert c
              decide
            rw [typeSpecP_no hg hsym s hat] at ht
            cases ht

theorem evalCast_no {g : Gram} {x y : Pos} (h : CF g y) (hx : lit '(' x = some y) : evalCast g x = none := by
  unfold evalCast
  simp only [hx]
  split
  · rfl
  · rename_i ht
    split
    · rfl
    · rename_i ha
      exact (h.2.2 _ _ _ _ _ ht _ _ _ _ _ ha).1

end Pyclib
