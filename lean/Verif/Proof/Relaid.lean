import Verif.Spec.Relaid
import Verif.Proof.RespaceDecl
import Verif.Props.File
/-! Proofs about files that are laid out differently. -/
namespace Pyclib
open Spec

/-- Nothing, or the end of a line. -/
def AtEol (u : Str) : Prop := u = [] ∨ ∃ v, u = '\n' :: v

theorem last_tail {x c : Char} {t : Str} (h : (c :: t).getLast? ≠ some x) : t.getLast? ≠ some x := by
  cases t with
  | nil => simp
  | cons d t => rwa [List.getLast?_cons_cons] at h

theorem last_suffix {x : Char} {a : Str} : ∀ {t : Str}, (a ++ t).getLast? ≠ some x → t.getLast? ≠ some x := by
  induction a with
  | nil => exact fun h => h
  | cons c a ih => exact fun h => ih (last_tail h)

theorem qBody_eol {q : Char} (hq : isQuoteC q = true) {u : Str} (hu : AtEol u) (t : Str) : t.getLast? ≠ some '\\' →
    qBody q (t ++ u) = ((qBody q t).1, (qBody q t).2 ++ u) := by
  have hqn : q ≠ '\n' := by rintro rfl; exact absurd hq (by decide)
  have hqb : q ≠ '\\' := by rintro rfl; exact absurd hq (by decide)
  rcases hu with rfl | ⟨v, rfl⟩
  · simp
  have h0 : qBody q ('\n' :: v) = ([], '\n' :: v) := by
    cases v with
    | nil => simp [qBody]
    | cons d v => rw [qBody_cons2]; simp [hqn.symm]
  induction t using qBody.induct q with
  | case1 => intro _; simp [h0, qBody]
  | case2 c hc =>
    intro hl
    simp only [List.cons_append, List.nil_append, qBody_cons2]
    have : c ≠ '\\' := by rintro rfl; simp at hl
    simp only [Bool.or_eq_true, decide_eq_true_eq] at hc
    rw [if_neg this]
    by_cases h1 : c = q
    · simp [h1, hqn.symm, qBody]
    · rw [if_neg h1]
      have : c = '\n' ∨ c = '\r' := by grind
      simp [this, qBody]
      rcases this with rfl | rfl <;> simp
  | case3 c hc =>
    intro hl
    simp only [List.cons_append, List.nil_append, qBody_cons2]
    simp only [Bool.or_eq_true, decide_eq_true_eq, not_or] at hc
    simp [hc, h0, qBody]
  | _ =>
    intro hl
    have h1 := last_tail hl
    have h2 := last_tail h1
    try have h3 := last_tail h2
    simp only [List.cons_append, List.nil_append, qBody_cons2]
    have hh : isHexC '\n' = false := by decide
    simp_all

theorem matchQuoted_eol {q : Char} (hq : isQuoteC q = true) {u : Str} (hu : AtEol u) {t : Str} (ht : t.getLast? ≠ some '\\') :
    matchQuoted q (t ++ u) = (matchQuoted q t).map fun p => (p.1, p.2 ++ u) := by
  have hqn : q ≠ '\n' := by rintro rfl; exact absurd hq (by decide)
  unfold matchQuoted
  rw [qBody_eol hq hu t ht]
  rcases h : qBody q t with ⟨b, _ | ⟨c, r⟩⟩
  · rcases hu with rfl | ⟨v, rfl⟩
    · rfl
    · simp [hqn.symm]
  · simp only [List.cons_append]
    split <;> rfl

/-- No packing. -/
abbrev Resp (k : Ctx) (p : Char) (t t' : Str) : Prop := Respaced (fun _ => none) (fun _ => none) k p t t'

/-- The two texts differ in white space only, whatever is in front of them, and whatever white space is between. -/
def Follows (u u' : Str) : Prop := AtEol u ∧ AtEol u' ∧
  ∀ k p w w', w.all isWhite = true → w'.all isWhite = true → Resp k p (w ++ u) (w' ++ u')

theorem resp_append {u u' : Str} (hu : Follows u u') {k : Ctx} {p : Char} {t t' : Str} (h : Resp k p t t') :
    t.getLast? ≠ some '\\' → t'.getLast? ≠ some '\\' → Resp k p (t ++ u) (t' ++ u') := by
  induction h with
  | tail k p w w' hw hw' => exact fun _ _ => hu.2.2 k p w w' hw hw'
  | char k p w w' c t t' hw hw' hc hg hk hq h ih =>
    intro h1 h2
    have h1 := last_tail (last_suffix h1)
    have h2 := last_tail (last_suffix h2)
    rw [List.append_assoc, List.append_assoc]
    refine .char k p w w' c (t ++ u) (t' ++ u') hw hw' hc hg rfl (fun e => ?_) (ih h1 h2)
    simp [matchQuoted_eol e hu.1 h1, matchQuoted_eol e hu.2.1 h2, hq e]
  | literal k p w w' c t t' a r r' hw hw' hc hg hk hq hq' h hr ih ihr =>
    intro h1 h2
    have h1 := last_tail (last_suffix h1)
    have h2 := last_tail (last_suffix h2)
    have h3 := h1
    have h4 := h2
    rw [← matchQuoted_eq hq] at h3
    rw [← matchQuoted_eq hq'] at h4
    rw [List.append_assoc, List.append_assoc]
    exact .literal k p w w' c (t ++ u) (t' ++ u') a (r ++ u) (r' ++ u') hw hw' hc hg rfl
      (by rw [matchQuoted_eol hc hu.1 h1, hq]; rfl) (by rw [matchQuoted_eol hc hu.2.1 h2, hq']; rfl) (ih h1 h2)
      (ihr (last_suffix h3) (last_suffix h4))

theorem nextCtx_start (k : Ctx) (p : Char) (w : Str) {w1 : Str} (h1 : w1 ≠ []) {c : Char} (hc : isSign c = false) (hs : isSpaceC c = false) :
    nextCtx k p (w1 ++ w) c = nextCtx .free ' ' w c := by
  have : (w1 ++ w).isEmpty = false := by simp [h1]
  simp [nextCtx, hc, hs, this]

theorem quote_start {c : Char} (h : isQuoteC c = true) : isWhite c = false := by
  unfold isQuoteC at h
  simp only [Bool.or_eq_true, decide_eq_true_eq] at h
  rcases h with rfl | rfl <;> rfl

theorem kept_start {k : Ctx} {c : Char} (h : c.isDigit = false ∧ c ≠ '.' ∧ isSign c = false ∧ isSpaceC c = false) : kept k c = false := by
  simp [kept, h]

/-- A text between two others. -/
theorem follows_text {t t' u u' : Str} (ht : SameText t t') (hu : Follows u u') : Follows ('\n' :: (t ++ u)) ('\n' :: (t' ++ u')) := by
  refine ⟨.inr ⟨_, rfl⟩, .inr ⟨_, rfl⟩, fun k p w w' hw hw' => ?_⟩
  obtain ⟨h, hs, h1, h2⟩ := ht
  have hn : isWhite '\n' = true := rfl
  generalize hk : Ctx.free = k0 at h
  generalize hp : ' ' = p0 at h
  unfold Resp
  cases h with
  | tail _ _ a a' ha ha' =>
    have := hu.2.2 k p (w ++ '\n' :: t) (w' ++ '\n' :: t') (by simp [hw, ha, hn]) (by simp [hw', ha', hn])
    simpa using this
  | char _ _ a a' c t t' ha ha' hc hg hk' hq h =>
    subst hk hp
    have hst := hs a c t rfl ha hc
    have h1 := last_tail (last_suffix h1)
    have h2 := last_tail (last_suffix h2)
    have := Respaced.char (pk := fun _ => none) (pk' := fun _ => none) k p (w ++ '\n' :: a) (w' ++ '\n' :: a') c (t ++ u) (t' ++ u')
      (by simp [hw, ha, hn]) (by simp [hw', ha', hn]) hc
      (.inr ⟨kept_start hst, .inl ⟨by simp, by simp⟩⟩) rfl
      (fun e => by simp [matchQuoted_eol e hu.1 h1, matchQuoted_eol e hu.2.1 h2, hq e])
      (by
        rw [show w ++ '\n' :: a = (w ++ ['\n']) ++ a by simp, nextCtx_start k p a (by simp) hst.2.2.1 hst.2.2.2]
        exact resp_append hu h h1 h2)
    simpa using this
  | literal _ _ a a' c t t' x r r' ha ha' hc hg hk' hq hq' h hr =>
    subst hk hp
    have hst := hs a c t rfl ha (quote_start hc)
    have h1 := last_tail (last_suffix h1)
    have h2 := last_tail (last_suffix h2)
    have h3 := h1
    have h4 := h2
    rw [← matchQuoted_eq hq] at h3
    rw [← matchQuoted_eq hq'] at h4
    have := Respaced.literal (pk := fun _ => none) (pk' := fun _ => none) k p (w ++ '\n' :: a) (w' ++ '\n' :: a') c (t ++ u) (t' ++ u') x
      (r ++ u) (r' ++ u') (by simp [hw, ha, hn]) (by simp [hw', ha', hn]) hc
      (.inr ⟨kept_start hst, .inl ⟨by simp, by simp⟩⟩) rfl
      (by rw [matchQuoted_eol hc hu.1 h1, hq]; rfl) (by rw [matchQuoted_eol hc hu.2.1 h2, hq']; rfl) (resp_append hu h h1 h2)
      (resp_append hu hr (last_suffix h3) (last_suffix h4))
    simpa using this

theorem follows_nil : Follows [] [] := ⟨.inl rfl, .inl rfl, fun k p w w' hw hw' => by simpa using Respaced.tail k p w w' hw hw'⟩

/-- Empty lines. -/
theorem follows_blank {u u' : Str} (hu : Follows u u') {a a' : Str} (ha : a.all isWhite = true) (ha' : a'.all isWhite = true)
    (h : AtEol (a ++ u)) (h' : AtEol (a' ++ u')) : Follows (a ++ u) (a' ++ u') :=
  ⟨h, h', fun k p w w' hw hw' => by
    have := hu.2.2 k p (w ++ a) (w' ++ a') (by simp [hw, ha]) (by simp [hw', ha'])
    simpa using this⟩

/-- At the beginning of a file white space may be left out. -/
theorem resp_strip {t t' : Str} (h : Resp .free ' ' ('\n' :: t) t') : Resp .free ' ' t t' := by
  unfold Resp at h ⊢
  generalize hx : '\n' :: t = x at h
  generalize hk : Ctx.free = k0 at h
  generalize hp : ' ' = p0 at h
  have gap : ∀ (w w' : Str) (c : Char), Gap .free ' ' w w' c := fun w w' c => .inr ⟨rfl, .inr (by
    simp only [mayTouch, show inWord ' ' = false from rfl]
    simp [opPairs])⟩
  cases h with
  | tail _ _ a a' ha ha' => subst hx; exact .tail _ _ _ _ (by simp at ha ⊢; exact ha.2) ha'
  | char _ _ a a' c t1 t1' ha ha' hc hg hk' hq h =>
    subst hk hp
    cases a with
    | nil => simp at hx; rw [← hx.1] at hc; exact absurd hc (by decide)
    | cons d a =>
      simp at hx
      obtain ⟨rfl, rfl⟩ := hx
      refine .char _ _ a a' c t1 t1' (by simp at ha ⊢; exact ha.2) ha' hc (gap _ _ _) rfl hq ?_
      have : nextCtx .free ' ' ('\n' :: a) c = nextCtx .free ' ' a c := by
        simp [nextCtx, show Char.isDigit ' ' = false from rfl]
      rwa [this] at h
  | literal _ _ a a' c t1 t1' x r r' ha ha' hc hg hk' hq hq' h hr =>
    subst hk hp
    cases a with
    | nil => simp at hx; rw [← hx.1] at hc; exact absurd hc (by decide)
    | cons d a =>
      simp at hx
      obtain ⟨rfl, rfl⟩ := hx
      exact .literal _ _ a a' c t1 t1' x r r' (by simp at ha ⊢; exact ha.2) ha' hc (gap _ _ _) rfl hq hq' h hr

theorem resp_strip' {t t' : Str} (h : Resp .free ' ' t ('\n' :: t')) : Resp .free ' ' t t' := by
  unfold Resp at h ⊢
  generalize hx : '\n' :: t' = x at h
  generalize hk : Ctx.free = k0 at h
  generalize hp : ' ' = p0 at h
  have gap : ∀ (w w' : Str) (c : Char), Gap .free ' ' w w' c := fun w w' c => .inr ⟨rfl, .inr (by
    simp only [mayTouch, show inWord ' ' = false from rfl]
    simp [opPairs])⟩
  cases h with
  | tail _ _ a a' ha ha' => subst hx; exact .tail _ _ _ _ ha (by simp at ha' ⊢; exact ha'.2)
  | char _ _ a a' c t1 t1' ha ha' hc hg hk' hq h =>
    subst hk hp
    cases a' with
    | nil => simp at hx; rw [← hx.1] at hc; exact absurd hc (by decide)
    | cons d a' =>
      simp at hx
      obtain ⟨rfl, rfl⟩ := hx
      exact .char _ _ a a' c t1 t1' ha (by simp at ha' ⊢; exact ha'.2) hc (gap _ _ _) rfl hq h
  | literal _ _ a a' c t1 t1' x r r' ha ha' hc hg hk' hq hq' h hr =>
    subst hk hp
    cases a' with
    | nil => simp at hx; rw [← hx.1] at hc; exact absurd hc (by decide)
    | cons d a' =>
      simp at hx
      obtain ⟨rfl, rfl⟩ := hx
      exact .literal _ _ a a' c t1 t1' x r r' ha (by simp at ha' ⊢; exact ha'.2) hc (gap _ _ _) rfl hq hq' h hr

/-! ### The preprocessor -/

/-- The output, with a line feed in front of each line. -/
def nlText (os : List Out) : Str := os.flatMap fun o => '\n' :: o.text

theorem nlText_join : ∀ {os : List Out}, os ≠ [] → nlText os = '\n' :: joinC '\n' (os.map Out.text)
  | [], h => absurd rfl h
  | [o], _ => by simp [nlText, joinC]
  | o :: o' :: os, _ => by
    have := nlText_join (os := o' :: os) (by simp)
    simp only [nlText, List.flatMap_cons] at this ⊢
    rw [this]
    simp [joinC]

theorem resp_out {os os' : List Out} (h : Follows (nlText os) (nlText os')) :
    Resp .free ' ' (joinC '\n' (os.map Out.text)) (joinC '\n' (os'.map Out.text)) := by
  have h0 := h.2.2 .free ' ' [] [] rfl rfl
  simp only [List.nil_append] at h0
  have e : ∀ os : List Out, os = [] ∨ nlText os = '\n' :: joinC '\n' (os.map Out.text) := fun os => by
    cases os with
    | nil => exact .inl rfl
    | cons o os => exact .inr (nlText_join (by simp))
  have h1 : Resp .free ' ' (joinC '\n' (os.map Out.text)) (nlText os') := by
    rcases e os with rfl | e
    · exact h0
    · rw [e] at h0; exact resp_strip h0
  rcases e os' with rfl | e
  · exact h1
  · rw [e] at h1; exact resp_strip' h1

/-- Groups inside groups that are skipped are skipped. -/
def Mono : List Bool → Prop
  | [] => True
  | b :: ts => (b = true → ts.all id = true) ∧ Mono ts

section
variable {E : Type} {sem : PPSem E} {P : E → Prop}

/-- What a directive does. -/
def QuietStep (P : E → Prop) (S : PPState E) (R : Except PyErr (PPState E × Option Out)) : Prop :=
  ∀ S' o, R = .ok (S', o) → P S'.env ∧ Mono S'.ifTrue ∧ S'.packList = S.packList ∧ (o = none ∨ o = some .blank)

theorem cond_step (S : PPState E) (hP : P S.env) (hM : Mono S.ifTrue) {l : Line}
    (hl : (∃ r, l = .dif r) ∨ (∃ r, l = .delif r) ∨ l = .delse ∨ l = .dendif ∨ l = .other) :
    ∃ R, (∀ i, ppStep sem i S l = R) ∧ QuietStep P S R := by
  rcases hl with ⟨r, rfl⟩ | ⟨r, rfl⟩ | rfl | rfl | rfl
  · refine ⟨_, fun i => rfl, fun S' o h => ?_⟩
    simp only [Except.ok.injEq, Prod.mk.injEq] at h
    obtain ⟨rfl, rfl⟩ := h
    refine ⟨hP, ⟨fun h => ?_, hM⟩, rfl, .inr rfl⟩
    cases ha : S.ifTrue.all id with
    | true => rfl
    | false => simp [ha] at h
  · refine ⟨_, fun i => rfl, fun S' o h => ?_⟩
    split at h
    · rename_i h' hs b ts e1 e2
      rw [e2] at hM
      simp only [Except.ok.injEq, Prod.mk.injEq] at h
      obtain ⟨rfl, rfl⟩ := h
      refine ⟨hP, ⟨fun h => ?_, hM.2⟩, rfl, .inr rfl⟩
      cases ha : ts.all id with
      | true => rfl
      | false => simp [ha] at h
    · cases h
  · refine ⟨_, fun i => rfl, fun S' o h => ?_⟩
    split at h
    · rename_i h' hs b ts e1 e2
      rw [e2] at hM
      simp only [Except.ok.injEq, Prod.mk.injEq] at h
      obtain ⟨rfl, rfl⟩ := h
      refine ⟨hP, ⟨fun h => ?_, hM.2⟩, rfl, .inr rfl⟩
      cases ha : ts.all id with
      | true => rfl
      | false => simp [ha] at h
    · cases h
  · refine ⟨_, fun i => rfl, fun S' o h => ?_⟩
    split at h
    · rename_i h' hs b ts e1 e2
      rw [e2] at hM
      simp only [Except.ok.injEq, Prod.mk.injEq] at h
      obtain ⟨rfl, rfl⟩ := h
      exact ⟨hP, hM.2, rfl, .inr rfl⟩
    · cases h
  · refine ⟨_, fun i => rfl, fun S' o h => ?_⟩
    simp only [Except.ok.injEq, Prod.mk.injEq] at h
    obtain ⟨rfl, rfl⟩ := h
    exact ⟨hP, hM, rfl, .inr rfl⟩

theorem dir_step {t : Str} (ht : IsDir sem P t) (S : PPState E) (hP : P S.env) (hM : Mono S.ifTrue) :
    ∃ R, (∀ i, ppStep sem i S (classify t) = R) ∧ QuietStep P S R := by
  cases ht with
  | define rest x body h1 h2 hp =>
    rw [C17_leaf (.define t rest x body h1 h2)]
    refine ⟨_, fun i => rfl, fun S' o h => ?_⟩
    split at h
    · cases h
    · simp only [Except.ok.injEq, Prod.mk.injEq] at h
      obtain ⟨rfl, rfl⟩ := h
      exact ⟨hP, hM, rfl, .inl rfl⟩
    · rename_i ts e
      simp only [Except.ok.injEq, Prod.mk.injEq] at h
      obtain ⟨rfl, rfl⟩ := h
      have hM' := hM
      rw [e] at hM'
      rw [if_pos (hM'.1 rfl)]
      exact ⟨hp _ hP, hM, rfl, .inr rfl⟩
  | undef rest x after h1 h2 hp =>
    rw [C17_leaf (.undef t rest x after h1 h2)]
    refine ⟨_, fun i => rfl, fun S' o h => ?_⟩
    split at h
    · cases h
    · simp only [Except.ok.injEq, Prod.mk.injEq] at h
      obtain ⟨rfl, rfl⟩ := h
      exact ⟨hP, hM, rfl, .inl rfl⟩
    · simp only [Except.ok.injEq, Prod.mk.injEq] at h
      obtain ⟨rfl, rfl⟩ := h
      exact ⟨hp _ hP, hM, rfl, .inr rfl⟩
  | pragma rest h1 hp =>
    rw [C17_leaf (.pragma t rest h1)]
    cases e : S.ifTrue with
    | nil => exact ⟨.error .indexError, fun i => by simp [ppStep, e], fun S' o h => by cases h⟩
    | cons b ts =>
      refine ⟨.ok (S, none), fun i => ?_, fun S' o h => ?_⟩
      · cases b with
        | false => simp [ppStep, e]
        | true =>
          have hM' := hM
          rw [e] at hM'
          simp [ppStep, e, hM'.1 rfl, packMatch_notPack (hp _ hP)]
      · simp only [Except.ok.injEq, Prod.mk.injEq] at h
        obtain ⟨rfl, rfl⟩ := h
        exact ⟨hP, hM, rfl, .inl rfl⟩
  | other kw rest h1 h2 h3 h4 =>
    refine cond_step S hP hM ?_
    simp only [classify, directive_match h1 h2 h3]
    simp only [List.mem_cons, List.not_mem_nil, or_false, not_or] at h4
    simp only [h4.1, h4.2.1, h4.2.2, if_false]
    repeat' split
    all_goals simp

theorem code_run {S : PPState E} {f : Str → Out} (hf : ∀ i l, ppStep sem i S (.code l) = .ok (S, some (f l))) (rest : List Line) :
    ∀ (ls : List Str) (i : Nat), ppRun sem i S (ls.map Line.code ++ rest) =
      match ppRun sem (i + ls.length) S rest with
      | .error e => .error e
      | .ok (S', os) => .ok (S', ls.map f ++ os)
  | [], i => by
    simp only [List.map_nil, List.nil_append, List.length_nil, Nat.add_zero]
    split <;> simp_all
  | l :: ls, i => by
    simp only [List.map_cons, List.cons_append, ppRun, hf]
    rw [code_run hf rest ls (i + 1), show i + 1 + ls.length = i + (l :: ls).length by simp; omega]
    cases h : ppRun sem (i + (l :: ls).length) S rest with
    | error e => rfl
    | ok r => rfl

/-- Two runs of the preprocessor. -/
def SameRun (P : E → Prop) (S : PPState E) : Except PyErr (PPState E × List Out) → Except PyErr (PPState E × List Out) → Prop
  | .error e, .error e' => e = e'
  | .ok (S1, os), .ok (S1', os') => S1 = S1' ∧ P S1.env ∧ S1.packList = S.packList ∧ Follows (nlText os) (nlText os')
  | _, _ => False

theorem nlText_append (a b : List Out) : nlText (a ++ b) = nlText a ++ nlText b := by simp [nlText]

theorem nlText_eol (os : List Out) : AtEol (nlText os) := by
  cases os with
  | nil => exact .inl rfl
  | cons o os => exact .inr ⟨_, rfl⟩

theorem nlText_blank (ls : List Str) : (nlText (ls.map fun _ => Out.blank)).all isWhite = true := by
  induction ls with
  | nil => rfl
  | cons l ls ih =>
    simp only [List.map_cons, nlText, List.flatMap_cons] at ih ⊢
    rw [List.all_append, ih]
    rfl

theorem classify_codes {ls : List Str} (h : ∀ l ∈ ls, ∀ a r, l = a ++ '#' :: r → ∃ c ∈ a, isSpaceC c = false) :
    ls.map classify = ls.map Line.code :=
  List.map_congr_left fun l hl => C17_leaf (.code l (h l hl))

theorem relaid_run : ∀ (ps : List Part), (∀ p ∈ ps, p.Ok sem P) → ∀ (i i' : Nat) (S : PPState E), P S.env → Mono S.ifTrue →
    SameRun P S (ppRun sem i S ((ps.flatMap Part.lines).map classify)) (ppRun sem i' S ((ps.flatMap Part.lines').map classify))
  | [], _, i, i', S, hP, _ => ⟨rfl, hP, rfl, follows_nil⟩
  | .dir t :: ps, hps, i, i', S, hP, hM => by
    have hd : IsDir sem P t := hps (.dir t) (by simp)
    obtain ⟨R, hR, hq⟩ := dir_step hd S hP hM
    simp only [List.flatMap_cons, Part.lines, Part.lines', List.cons_append, List.nil_append, List.map_cons, ppRun, hR]
    rcases R with e | ⟨S1, o⟩
    · rfl
    · obtain ⟨h1, h2, h3, h4⟩ := hq S1 o rfl
      have ih := relaid_run ps (fun p hp => hps p (by simp [hp])) (i + 1) (i' + 1) S1 h1 h2
      simp only
      cases hr : ppRun sem (i + 1) S1 ((ps.flatMap Part.lines).map classify) with
      | error e =>
        cases hr' : ppRun sem (i' + 1) S1 ((ps.flatMap Part.lines').map classify) with
        | error e' => simp only [hr, hr', SameRun] at ih; exact ih
        | ok r' => simp only [hr, hr', SameRun] at ih
      | ok r =>
        cases hr' : ppRun sem (i' + 1) S1 ((ps.flatMap Part.lines').map classify) with
        | error e' => simp only [hr, hr', SameRun] at ih
        | ok r' =>
          simp only [hr, hr', SameRun] at ih
          refine ⟨ih.1, ih.2.1, ih.2.2.1.trans h3, ?_⟩
          have ha : (nlText o.toList).all isWhite = true := by rcases h4 with rfl | rfl <;> rfl
          have := follows_blank ih.2.2.2 ha ha (by rw [← nlText_append]; exact nlText_eol _) (by rw [← nlText_append]; exact nlText_eol _)
          rwa [← nlText_append, ← nlText_append] at this
  | .code ls ls' :: ps, hps, i, i', S, hP, hM => by
    obtain ⟨hn, hn', hc, ht⟩ := (hps _ (by simp) : Part.Ok sem P (.code ls ls'))
    have ih := relaid_run ps (fun p hp => hps p (by simp [hp])) (i + ls.length) (i' + ls'.length) S hP hM
    simp only [List.flatMap_cons, Part.lines, Part.lines', List.map_append]
    rw [classify_codes (ls := ls) (fun l hl => hc l (by simp [hl])), classify_codes (ls := ls') (fun l hl => hc l (by simp [hl]))]
    cases e : S.ifTrue with
    | nil =>
      obtain ⟨l, ls, rfl⟩ := List.exists_cons_of_ne_nil hn
      obtain ⟨l', ls', rfl⟩ := List.exists_cons_of_ne_nil hn'
      simp [ppRun, ppStep, e, SameRun]
    | cons b ts =>
      obtain ⟨f, hf, hu⟩ : ∃ f, (∀ i l, ppStep sem i S (.code l) = .ok (S, some (f l))) ∧ ∀ u u' : List Out, Follows (nlText u) (nlText u') →
          Follows (nlText (ls.map f ++ u)) (nlText (ls'.map f ++ u')) := by
        cases b with
        | false =>
          refine ⟨fun _ => .blank, fun i l => by simp [ppStep, e], fun u u' hu => ?_⟩
          have := follows_blank hu (nlText_blank ls) (nlText_blank ls') (by rw [← nlText_append]; exact nlText_eol _)
            (by rw [← nlText_append]; exact nlText_eol _)
          rwa [← nlText_append, ← nlText_append] at this
        | true =>
          refine ⟨fun l => .code (sem.expand S.env l), fun i l => by simp [ppStep, e], fun u u' hu => ?_⟩
          have hj : ∀ ls : List Str, ls ≠ [] → nlText (ls.map fun l => Out.code (sem.expand S.env l)) =
              '\n' :: joinC '\n' (ls.map (sem.expand S.env)) := fun ls h => by
            rw [nlText_join (by simpa using h), List.map_map]
            rfl
          rw [nlText_append, nlText_append, hj ls hn, hj ls' hn']
          exact follows_text (ht S.env hP) hu
      rw [code_run hf, code_run hf]
      cases hr : ppRun sem (i + ls.length) S ((ps.flatMap Part.lines).map classify) with
      | error e =>
        cases hr' : ppRun sem (i' + ls'.length) S ((ps.flatMap Part.lines').map classify) with
        | error e' => simp only [hr, hr', SameRun] at ih; exact ih
        | ok r' => simp only [hr, hr', SameRun] at ih
      | ok r =>
        cases hr' : ppRun sem (i' + ls'.length) S ((ps.flatMap Part.lines').map classify) with
        | error e' => simp only [hr, hr', SameRun] at ih
        | ok r' =>
          simp only [hr, hr', SameRun] at ih
          exact ⟨ih.1, ih.2.1, ih.2.2.1, hu _ _ ih.2.2.2⟩
end

end Pyclib
