import Verif.Spec.RelaidPack
import Verif.Proof.Relaid
/-! Proofs about files with `#pragma pack` that are laid out differently. -/
namespace Pyclib
open Spec

/-- The two texts differ in white space only and have the same packings, whatever is in front of them. -/
def FollowsP (f f' : Nat → Option Nat) (u u' : Str) : Prop := AtEol u ∧ AtEol u' ∧
  ∀ k p w w', w.all isWhite = true → w'.all isWhite = true → Respaced f f' k p (w ++ u) (w' ++ u')

/-- The packing at each character of `t`, which is in front of `u`, is `d`. -/
def PackIs (f : Nat → Option Nat) (d : Option Nat) (t u : Str) : Prop :=
  ∀ a x b, t = a ++ x :: b → isWhite x = false → f (x :: (b ++ u)).length = d

theorem PackIs.suffix {f : Nat → Option Nat} {d : Option Nat} {a t u : Str} (h : PackIs f d (a ++ t) u) : PackIs f d t u :=
  fun b x c e hx => h (a ++ b) x c (by rw [e, List.append_assoc]) hx

theorem PackIs.tail {f : Nat → Option Nat} {d : Option Nat} {c : Char} {t u : Str} (h : PackIs f d (c :: t) u) : PackIs f d t u :=
  PackIs.suffix (a := [c]) h

section
variable {f f' : Nat → Option Nat} {d : Option Nat}

theorem respP_append {u u' : Str} (hu : FollowsP f f' u u') {k : Ctx} {p : Char} {t t' : Str} (h : Resp k p t t') :
    t.getLast? ≠ some '\\' → t'.getLast? ≠ some '\\' → PackIs f d t u → PackIs f' d t' u' → Respaced f f' k p (t ++ u) (t' ++ u') := by
  induction h with
  | tail k p w w' hw hw' => exact fun _ _ _ _ => hu.2.2 k p w w' hw hw'
  | char k p w w' c t t' hw hw' hc hg hk hq h ih =>
    intro h1 h2 p1 p2
    have h1 := last_tail (last_suffix h1)
    have h2 := last_tail (last_suffix h2)
    rw [List.append_assoc, List.append_assoc]
    refine .char k p w w' c (t ++ u) (t' ++ u') hw hw' hc hg ((p1 w c t rfl hc).trans (p2 w' c t' rfl hc).symm) (fun e => ?_)
      (ih h1 h2 p1.suffix.tail p2.suffix.tail)
    simp [matchQuoted_eol e hu.1 h1, matchQuoted_eol e hu.2.1 h2, hq e]
  | literal k p w w' c t t' a r r' hw hw' hc hg hk hq hq' h hr ih ihr =>
    intro h1 h2 p1 p2
    have h1 := last_tail (last_suffix h1)
    have h2 := last_tail (last_suffix h2)
    have hcw := quote_start hc
    have hk1 := (p1 w c t rfl hcw).trans (p2 w' c t' rfl hcw).symm
    have p1 := p1.suffix.tail
    have p2 := p2.suffix.tail
    have h3 := h1
    have h4 := h2
    have p3 := p1
    have p4 := p2
    rw [← matchQuoted_eq hq] at h3 p3
    rw [← matchQuoted_eq hq'] at h4 p4
    rw [List.append_assoc, List.append_assoc]
    exact .literal k p w w' c (t ++ u) (t' ++ u') a (r ++ u) (r' ++ u') hw hw' hc hg hk1
      (by rw [matchQuoted_eol hc hu.1 h1, hq]; rfl) (by rw [matchQuoted_eol hc hu.2.1 h2, hq']; rfl) (ih h1 h2 p1 p2)
      (ihr (last_suffix h3) (last_suffix h4) p3.suffix p4.suffix)

/-- A text between two others. -/
theorem followsP_text {t t' u u' : Str} (ht : SameText t t') (hu : FollowsP f f' u u') (p1 : PackIs f d t u) (p2 : PackIs f' d t' u') :
    FollowsP f f' ('\n' :: (t ++ u)) ('\n' :: (t' ++ u')) := by
  refine ⟨.inr ⟨_, rfl⟩, .inr ⟨_, rfl⟩, fun k p w w' hw hw' => ?_⟩
  obtain ⟨h, hs, h1, h2⟩ := ht
  have hn : isWhite '\n' = true := rfl
  generalize hk : Ctx.free = k0 at h
  generalize hp : ' ' = p0 at h
  cases h with
  | tail _ _ a a' ha ha' =>
    have := hu.2.2 k p (w ++ '\n' :: t) (w' ++ '\n' :: t') (by simp [hw, ha, hn]) (by simp [hw', ha', hn])
    simpa using this
  | char _ _ a a' c t t' ha ha' hc hg hk' hq h =>
    subst hk hp
    have hst := hs a c t rfl ha hc
    have h1 := last_tail (last_suffix h1)
    have h2 := last_tail (last_suffix h2)
    have hk1 := (p1 a c t rfl hc).trans (p2 a' c t' rfl hc).symm
    have := Respaced.char (pk := f) (pk' := f') k p (w ++ '\n' :: a) (w' ++ '\n' :: a') c (t ++ u) (t' ++ u')
      (by simp [hw, ha, hn]) (by simp [hw', ha', hn]) hc
      (.inr ⟨kept_start hst, .inl ⟨by simp, by simp⟩⟩) hk1
      (fun e => by simp [matchQuoted_eol e hu.1 h1, matchQuoted_eol e hu.2.1 h2, hq e])
      (by
        rw [show w ++ '\n' :: a = (w ++ ['\n']) ++ a by simp, nextCtx_start k p a (by simp) hst.2.2.1 hst.2.2.2]
        exact respP_append hu h h1 h2 p1.suffix.tail p2.suffix.tail)
    simpa using this
  | literal _ _ a a' c t t' x r r' ha ha' hc hg hk' hq hq' h hr =>
    subst hk hp
    have hst := hs a c t rfl ha (quote_start hc)
    have h1 := last_tail (last_suffix h1)
    have h2 := last_tail (last_suffix h2)
    have hk1 := (p1 a c t rfl (quote_start hc)).trans (p2 a' c t' rfl (quote_start hc)).symm
    have p1 := p1.suffix.tail
    have p2 := p2.suffix.tail
    have h3 := h1
    have h4 := h2
    have p3 := p1
    have p4 := p2
    rw [← matchQuoted_eq hq] at h3 p3
    rw [← matchQuoted_eq hq'] at h4 p4
    have := Respaced.literal (pk := f) (pk' := f') k p (w ++ '\n' :: a) (w' ++ '\n' :: a') c (t ++ u) (t' ++ u') x
      (r ++ u) (r' ++ u') (by simp [hw, ha, hn]) (by simp [hw', ha', hn]) hc
      (.inr ⟨kept_start hst, .inl ⟨by simp, by simp⟩⟩) hk1
      (by rw [matchQuoted_eol hc hu.1 h1, hq]; rfl) (by rw [matchQuoted_eol hc hu.2.1 h2, hq']; rfl) (respP_append hu h h1 h2 p1 p2)
      (respP_append hu hr (last_suffix h3) (last_suffix h4) p3.suffix p4.suffix)
    simpa using this

theorem followsP_nil : FollowsP f f' [] [] :=
  ⟨.inl rfl, .inl rfl, fun k p w w' hw hw' => by simpa using Respaced.tail k p w w' hw hw'⟩

/-- Empty lines. -/
theorem followsP_blank {u u' : Str} (hu : FollowsP f f' u u') {a a' : Str} (ha : a.all isWhite = true) (ha' : a'.all isWhite = true)
    (h : AtEol (a ++ u)) (h' : AtEol (a' ++ u')) : FollowsP f f' (a ++ u) (a' ++ u') :=
  ⟨h, h', fun k p w w' hw hw' => by
    have := hu.2.2 k p (w ++ a) (w' ++ a') (by simp [hw, ha]) (by simp [hw', ha'])
    simpa using this⟩

theorem gap_start (w w' : Str) (c : Char) : Gap .free ' ' w w' c := .inr ⟨rfl, .inr (by
    simp only [mayTouch, show inWord ' ' = false from rfl]
    simp [opPairs])⟩

theorem respP_strip {t t' : Str} (h : Respaced f f' .free ' ' ('\n' :: t) t') : Respaced f f' .free ' ' t t' := by
  generalize hx : '\n' :: t = x at h
  generalize hk : Ctx.free = k0 at h
  generalize hp : ' ' = p0 at h
  cases h with
  | tail _ _ a a' ha ha' => subst hx; subst hk; exact .tail _ _ _ _ (by simp at ha ⊢; exact ha.2) ha'
  | char _ _ a a' c t1 t1' ha ha' hc hg hk' hq h =>
    subst hk hp
    cases a with
    | nil => simp at hx; rw [← hx.1] at hc; exact absurd hc (by decide)
    | cons d a =>
      simp at hx
      obtain ⟨rfl, rfl⟩ := hx
      refine .char _ _ a a' c t1 t1' (by simp at ha ⊢; exact ha.2) ha' hc (gap_start _ _ _) hk' hq ?_
      have : nextCtx .free ' ' ('\n' :: a) c = nextCtx .free ' ' a c := by
        simp [nextCtx, show Char.isDigit ' ' = false from rfl]
      rwa [this] at h
  | literal _ _ a a' c t1 t1' x r r' ha ha' hc hg hk' hq hq' h hr =>
    subst hk hp
    cases a with
    | nil => simp at hx; rw [← hx.1] at hc; exact absurd hc (by decide)
    | cons d a =>
      simp at hx
      obtain ⟨rfl, rfl⟩ := hx
      exact .literal _ _ a a' c t1 t1' x r r' (by simp at ha ⊢; exact ha.2) ha' hc (gap_start _ _ _) hk' hq hq' h hr

theorem respP_strip' {t t' : Str} (h : Respaced f f' .free ' ' t ('\n' :: t')) : Respaced f f' .free ' ' t t' := by
  generalize hx : '\n' :: t' = x at h
  generalize hk : Ctx.free = k0 at h
  generalize hp : ' ' = p0 at h
  cases h with
  | tail _ _ a a' ha ha' => subst hx; subst hk; exact .tail _ _ _ _ ha (by simp at ha' ⊢; exact ha'.2)
  | char _ _ a a' c t1 t1' ha ha' hc hg hk' hq h =>
    subst hk hp
    cases a' with
    | nil => simp at hx; rw [← hx.1] at hc; exact absurd hc (by decide)
    | cons d a' =>
      simp at hx
      obtain ⟨rfl, rfl⟩ := hx
      exact .char _ _ a a' c t1 t1' ha (by simp at ha' ⊢; exact ha'.2) hc (gap_start _ _ _) hk' hq h
  | literal _ _ a a' c t1 t1' x r r' ha ha' hc hg hk' hq hq' h hr =>
    subst hk hp
    cases a' with
    | nil => simp at hx; rw [← hx.1] at hc; exact absurd hc (by decide)
    | cons d a' =>
      simp at hx
      obtain ⟨rfl, rfl⟩ := hx
      exact .literal _ _ a a' c t1 t1' x r r' ha (by simp at ha' ⊢; exact ha'.2) hc (gap_start _ _ _) hk' hq hq' h hr

theorem respP_out {os os' : List Out} (h : FollowsP f f' (nlText os) (nlText os')) :
    Respaced f f' .free ' ' (joinC '\n' (os.map Out.text)) (joinC '\n' (os'.map Out.text)) := by
  have h0 := h.2.2 .free ' ' [] [] rfl rfl
  simp only [List.nil_append] at h0
  have e : ∀ os : List Out, os = [] ∨ nlText os = '\n' :: joinC '\n' (os.map Out.text) := fun os => by
    cases os with
    | nil => exact .inl rfl
    | cons o os => exact .inr (nlText_join (by simp))
  have h1 : Respaced f f' .free ' ' (joinC '\n' (os.map Out.text)) (nlText os') := by
    rcases e os with rfl | e
    · exact h0
    · rw [e] at h0; exact respP_strip h0
  rcases e os' with rfl | e
  · exact h1
  · rw [e] at h1; exact respP_strip' h1
end

/-! ### Lines and packings -/

theorem packingAt_split {line : Nat} {b : List (Nat × Option Nat)} (hb : ∀ q ∈ b, line < q.1) : ∀ (a : List (Nat × Option Nat)) (acc : Option Nat),
    (∀ q ∈ a, q.1 ≤ line) → packingAtFrom acc line (a ++ b) = (a.getLast?.map (·.2)).getD acc
  | [], acc, _ => by
    cases b with
    | nil => rfl
    | cons q b =>
      obtain ⟨i, p⟩ := q
      have : line < i := hb (i, p) (by simp)
      simp only [List.nil_append, packingAtFrom, List.getLast?_nil, Option.map_none, Option.getD_none]
      rw [if_neg (by omega)]
  | (i, p) :: a, acc, ha => by
    have h1 : i ≤ line := ha (i, p) (by simp)
    simp only [List.cons_append, packingAtFrom, if_pos h1]
    rw [packingAt_split hb a p (fun q hq => ha q (by simp [hq]))]
    cases a with
    | nil => rfl
    | cons q a => rw [List.getLast?_cons_cons]; cases h : (q :: a).getLast? <;> simp_all

/-- The packing after some changes. -/
def lastPack (l : List (Nat × Option Nat)) : Option Nat := (l.getLast?.map (·.2)).getD none

/-- The line of a character. -/
theorem join_line : ∀ (ls : List Str) (b : Str) (x : Char) (c : Str), joinC '\n' ls = b ++ x :: c → (∀ l ∈ ls, '\n' ∉ l) → x ≠ '\n' →
    ∃ l, ls[b.count '\n']? = some l ∧ x ∈ l
  | [], b, x, c, e, _, _ => by simp [joinC] at e
  | [l], b, x, c, e, h, _ => by
    simp only [joinC] at e
    have h1 : '\n' ∉ l := h l (by simp)
    have h2 : b.count '\n' = 0 := List.count_eq_zero.2 fun hb => h1 (by rw [e]; simp [hb])
    exact ⟨l, by simp [h2], by rw [e]; simp⟩
  | l :: l2 :: ls, b, x, c, e, h, hx => by
    simp only [joinC] at e
    have h1 : '\n' ∉ l := h l (by simp)
    rcases List.append_eq_append_iff.1 e with ⟨d, rfl, e2⟩ | ⟨d, rfl, e2⟩
    · cases d with
      | nil => simp at e2; exact absurd e2.1.symm hx
      | cons y d =>
        simp only [List.cons_append, List.cons.injEq] at e2
        obtain ⟨rfl, e2⟩ := e2
        obtain ⟨l', h3, h4⟩ := join_line (l2 :: ls) d x c e2 (fun l hl => h l (by simp [hl])) hx
        refine ⟨l', ?_, h4⟩
        rw [List.count_append, List.count_eq_zero.2 h1, List.count_cons_self, Nat.zero_add, List.getElem?_cons_succ]
        exact h3
    · cases d with
      | nil => simp at e2; exact absurd e2.1 hx
      | cons y d =>
        simp only [List.cons_append, List.cons.injEq] at e2
        obtain ⟨rfl, e2⟩ := e2
        have h2 : b.count '\n' = 0 := List.count_eq_zero.2 fun hb => h1 (by simp [hb])
        exact ⟨b ++ x :: d, by simp [h2], by simp⟩

/-- `f` gives the packing at the places of the text `T`, where every line begins with a line feed. -/
def PkFun (T : Str) (packs : List (Nat × Option Nat)) (f : Nat → Option Nat) : Prop :=
  ∀ a u, T = a ++ u → a ≠ [] → f u.length = packingAt (a.count '\n') packs

theorem pkFun_struct (out : Str) (packs : List (Nat × Option Nat)) :
    PkFun ('\n' :: out) packs (fun n => structPacking packs out (out.length - n)) := by
  intro a u e ha
  cases a with
  | nil => exact absurd rfl ha
  | cons c a =>
    simp only [List.cons_append, List.cons.injEq] at e
    obtain ⟨rfl, rfl⟩ := e
    simp only [structPacking, linenoAt, List.length_append, Nat.add_sub_cancel, List.take_left]
    rw [List.count_cons_self, Nat.add_comm, List.count_eq_length_filter]
    congr 2

/-! ### The preprocessor -/

section
variable {E : Type} {sem : PPSem E} {P : E → Prop}

/-- The state with other packings. -/
def PPState.withPacks (S : PPState E) (l : List (Nat × Option Nat)) : PPState E := { S with packList := l }

theorem packEffect_with (i i' : Nat) (S : PPState E) (l' : List (Nat × Option Nat)) (pf : Bool) (pp : Option Str) (val : Option Nat)
    (id : Option Str) :
    (∃ e, packEffect i S pf pp val id = .error e ∧ packEffect i' (S.withPacks l') pf pp val id = .error e) ∨
    ∃ S1 p, packEffect i S pf pp val id = .ok S1 ∧ packEffect i' (S.withPacks l') pf pp val id = .ok (S1.withPacks (l' ++ [(i', p)])) ∧
      S1.env = S.env ∧ S1.ifTrue = S.ifTrue ∧ S1.packList = S.packList ++ [(i, p)] := by
  unfold packEffect
  split
  · exact .inr ⟨_, val, rfl, rfl, rfl, rfl, rfl⟩
  · split
    · cases id with
      | none =>
        simp only [PPState.withPacks]
        by_cases h : S.packStack = []
        · simp only [h, if_true]
          exact .inl ⟨_, rfl, rfl⟩
        · simp only [h, if_false]
          cases val with
          | some v => exact .inr ⟨_, some v, rfl, rfl, rfl, rfl, rfl⟩
          | none =>
            simp only
            cases S.packStack.dropLast.getLast? with
            | none => exact .inl ⟨_, rfl, rfl⟩
            | some q => exact .inr ⟨_, q.1, rfl, rfl, rfl, rfl, rfl⟩
      | some x =>
        simp only [PPState.withPacks]
        cases val with
        | some v => exact .inr ⟨_, some v, rfl, rfl, rfl, rfl, rfl⟩
        | none =>
          simp only
          cases (packTruncate x S.packStack).getLast? with
          | none => exact .inl ⟨_, rfl, rfl⟩
          | some q => exact .inr ⟨_, q.1, rfl, rfl, rfl, rfl, rfl⟩
    · exact .inr ⟨_, val, rfl, rfl, rfl, rfl, rfl⟩

/-- The packings do not matter to lines other than pragmas. -/
theorem ppStep_with (i i' : Nat) (S : PPState E) (l' : List (Nat × Option Nat)) (l : Line) (hl : ∀ r, l ≠ .pragma r) :
    ppStep sem i' (S.withPacks l') l = (ppStep sem i S l).map (fun q => (q.1.withPacks l', q.2)) := by
  cases l with
  | pragma r => exact absurd rfl (hl r)
  | _ =>
    simp only [ppStep, PPState.withPacks]
    repeat' split
    all_goals first | rfl | simp_all [Except.map]

/-- What a directive does in both files. -/
theorem dirP_step {t : Str} (ht : IsDir sem P t ∨ IsPragma t) (S : PPState E) (l' : List (Nat × Option Nat)) (i i' : Nat) (hP : P S.env)
    (hM : Mono S.ifTrue) :
    (∃ e, ppStep sem i S (classify t) = .error e ∧ ppStep sem i' (S.withPacks l') (classify t) = .error e) ∨
    ∃ S1 o m m', ppStep sem i S (classify t) = .ok (S1, o) ∧ ppStep sem i' (S.withPacks l') (classify t) = .ok (S1.withPacks (l' ++ m'), o) ∧
      P S1.env ∧ Mono S1.ifTrue ∧ S1.packList = S.packList ++ m ∧ (o = none ∨ o = some .blank) ∧
      ((m = [] ∧ m' = []) ∨ (IsPragma t ∧ ∃ p, m = [(i, p)] ∧ m' = [(i', p)])) := by
  by_cases hp : ∃ r, classify t = .pragma r
  · obtain ⟨r, hr⟩ := hp
    rw [hr]
    have hpr : IsPragma t := by
      rcases ht with ht | ht
      · cases ht with
        | pragma rest h1 _ => exact ⟨rest, h1⟩
        | define rest x body h1 h2 _ => rw [C17_leaf (.define t rest x body h1 h2)] at hr; cases hr
        | undef rest x after h1 h2 _ => rw [C17_leaf (.undef t rest x after h1 h2)] at hr; cases hr
        | other kw rest h1 h2 h3 h4 =>
          exfalso
          simp only [classify, directive_match h1 h2 h3] at hr
          simp only [List.mem_cons, List.not_mem_nil, or_false, not_or] at h4
          simp only [h4.1, h4.2.1, h4.2.2, if_false] at hr
          revert hr
          repeat' split
          all_goals simp
      · exact ht
    simp only [ppStep, PPState.withPacks]
    cases e : S.ifTrue with
    | nil => exact .inl ⟨_, rfl, rfl⟩
    | cons b ts =>
      cases b with
      | false => exact .inr ⟨S, none, [], [], rfl, by simp [PPState.withPacks, e], hP, hM, by simp, .inl rfl, .inl ⟨rfl, rfl⟩⟩
      | true =>
        simp only
        cases packMatch (if ts.all id = true then sem.expand S.env r else r) with
        | none => exact .inr ⟨S, none, [], [], rfl, by simp [PPState.withPacks, e], hP, hM, by simp, .inl rfl, .inl ⟨rfl, rfl⟩⟩
        | some txt =>
          simp only [doPack]
          rcases packEffect_with i i' S l' (decide (((splitOnC ',' txt).map strip).head? = some c%"pop"))
            (packOpts ((splitOnC ',' txt).map strip) (none, none, none)).1 (packOpts ((splitOnC ',' txt).map strip) (none, none, none)).2.1
            (packOpts ((splitOnC ',' txt).map strip) (none, none, none)).2.2 with ⟨x, h1, h2⟩ | ⟨S1, p, h1, h2, h3, h4, h5⟩
          · simp only [PPState.withPacks, e] at h1 h2
            simp only [h1, h2]
            exact .inl ⟨x, rfl, rfl⟩
          · simp only [PPState.withPacks, e] at h1 h2
            simp only [h1, h2]
            exact .inr ⟨S1, some .blank, [(i, p)], [(i', p)], rfl, rfl, h3 ▸ hP, h4 ▸ hM, h5, .inr rfl, .inr ⟨hpr, p, rfl, rfl⟩⟩
  · have hp : ∀ r, classify t ≠ .pragma r := fun r hr => hp ⟨r, hr⟩
    have hd : IsDir sem P t := by
      rcases ht with ht | ⟨rest, ht⟩
      · exact ht
      · exact absurd (C17_leaf (.pragma t rest ht)) (hp rest)
    obtain ⟨R, h1, h2⟩ := dir_step hd S hP hM
    rw [ppStep_with i i' S l' _ hp, h1]
    rcases R with x | ⟨S1, o⟩
    · exact .inl ⟨x, rfl, rfl⟩
    · obtain ⟨h3, h4, h5, h6⟩ := h2 S1 o rfl
      exact .inr ⟨S1, o, [], [], rfl, by simp [Except.map], h3, h4, by simp [h5], h6, .inl ⟨rfl, rfl⟩⟩

theorem ppRun_le : ∀ (ls : List Line) (i : Nat) (S S1 : PPState E) (os : List Out), ppRun sem i S ls = .ok (S1, os) → os.length ≤ ls.length
  | [], i, S, S1, os, h => by cases h; simp
  | l :: ls, i, S, S1, os, h => by
    simp only [ppRun] at h
    split at h
    · cases h
    · rename_i s' o _
      split at h
      · cases h
      · rename_i s2 os2 e
        cases h
        have := ppRun_le ls _ _ _ _ e
        cases o <;> simp <;> omega

/-- What is known about two runs in which no line is dropped. -/
def PackRun (P : E → Prop) (ps : List Part) (S : PPState E) (l' : List (Nat × Option Nat)) (i i' N : Nat) :
    Except PyErr (PPState E × List Out) → Except PyErr (PPState E × List Out) → Prop
  | .error e, .error e' => e = e'
  | .ok (S1, os), .ok (S1', os') => ∃ m m', S1.packList = S.packList ++ m ∧ S1' = S1.withPacks (l' ++ m') ∧ P S1.env ∧
      (∀ q ∈ m, i ≤ q.1 ∧ (¬ StartsPragma ps → i < q.1)) ∧ (∀ q ∈ m', i' ≤ q.1 ∧ (¬ StartsPragma ps → i' < q.1)) ∧
      (os.length = N → (∀ q ∈ S.packList, q.1 ≤ i) → (∀ q ∈ l', q.1 ≤ i') → lastPack S.packList = lastPack l' →
        ∀ T T' a a' f f', T = a ++ nlText os → a.count '\n' = i → T' = a' ++ nlText os' → a'.count '\n' = i' →
          PkFun T (S.packList ++ m) f → PkFun T' (l' ++ m') f' → FollowsP f f' (nlText os) (nlText os'))
  | _, _ => False

/-- The packing at the characters of lines of text. -/
theorem packIs_lines {ls : List Str} {l m : List (Nat × Option Nat)} {i : Nat} {T a u : Str} {f : Nat → Option Nat}
    (hn : ∀ l ∈ ls, '\n' ∉ l) (hT : T = a ++ ('\n' :: (joinC '\n' ls ++ u))) (ha : a.count '\n' = i) (hf : PkFun T (l ++ m) f)
    (hl : ∀ q ∈ l, q.1 ≤ i) (hm : ∀ q ∈ m, i + ls.length ≤ q.1)
    (hm' : (∀ q ∈ m, i + ls.length < q.1) ∨ ∀ l ∈ ls.getLast?, l.all isWhite = true) : PackIs f (lastPack l) (joinC '\n' ls) u := by
  intro b x c e hx
  have hx' : x ≠ '\n' := by rintro rfl; exact absurd hx (by decide)
  obtain ⟨k, h1, h2⟩ := join_line ls b x c e hn hx'
  have h3 := (List.getElem?_eq_some_iff.1 h1).1
  have e2 := hf (a ++ '\n' :: b) (x :: (c ++ u)) (by rw [hT, e]; simp) (by simp)
  rw [e2, packingAt]
  have hc : (a ++ '\n' :: b).count '\n' = i + 1 + b.count '\n' := by
    rw [List.count_append, List.count_cons_self, ha]; omega
  rw [hc, packingAt_split _ l none (fun q hq => by have := hl q hq; omega)]
  · rfl
  · intro q hq
    rcases hm' with hm' | hm'
    · have := hm' q hq
      omega
    · by_cases h4 : b.count '\n' + 1 = ls.length
      · exfalso
        have : ls.getLast? = some k := by rw [List.getLast?_eq_getElem?, show ls.length - 1 = b.count '\n' by omega, h1]
        have := hm' k (by simp [this])
        rw [List.all_eq_true] at this
        rw [this x h2] at hx
        cases hx
      · have := hm q hq
        omega

theorem packed_run : ∀ (ps : List Part), PackedOk sem P ps → ∀ (i i' : Nat) (S : PPState E) (l' : List (Nat × Option Nat)), P S.env →
    Mono S.ifTrue → PackRun P ps S l' i i' (ps.flatMap Part.lines).length (ppRun sem i S ((ps.flatMap Part.lines).map classify))
      (ppRun sem i' (S.withPacks l') ((ps.flatMap Part.lines').map classify))
  | [], _, i, i', S, l', hP, _ => ⟨[], [], by simp, by simp, hP, by simp, by simp, fun _ _ _ _ _ _ _ _ _ _ _ _ _ _ _ _ => followsP_nil⟩
  | .dir t :: ps, hps, i, i', S, l', hP, hM => by
    simp only [List.flatMap_cons, Part.lines, Part.lines', List.cons_append, List.nil_append, List.map_cons, ppRun]
    rcases dirP_step hps.1 S l' i i' hP hM with ⟨e, h1, h2⟩ | ⟨S1, o, n, n', h1, h2, h3, h4, h5, h6, h7⟩
    · simp only [h1, h2]; rfl
    · simp only [h1, h2]
      have ih := packed_run ps hps.2 (i + 1) (i' + 1) S1 (l' ++ n') h3 h4
      have hle := ppRun_le (sem := sem) ((ps.flatMap Part.lines).map classify) (i + 1) S1
      cases hr : ppRun sem (i + 1) S1 ((ps.flatMap Part.lines).map classify) with
      | error e =>
        cases hr' : ppRun sem (i' + 1) (S1.withPacks (l' ++ n')) ((ps.flatMap Part.lines').map classify) with
        | error e' => simp only [hr, hr', PackRun] at ih; exact ih
        | ok r' => simp only [hr, hr', PackRun] at ih
      | ok r =>
        cases hr' : ppRun sem (i' + 1) (S1.withPacks (l' ++ n')) ((ps.flatMap Part.lines').map classify) with
        | error e' => simp only [hr, hr', PackRun] at ih
        | ok r' =>
          simp only [hr, hr', PackRun] at ih
          obtain ⟨m, m', a1, a2, a3, a4, a5, a6⟩ := ih
          have hle := hle r.1 r.2 hr
          refine ⟨n ++ m, n' ++ m', by rw [a1, h5, List.append_assoc], by rw [a2, List.append_assoc], a3, ?_, ?_, ?_⟩
          · intro q hq
            rcases List.mem_append.1 hq with hq | hq
            · rcases h7 with ⟨rfl, _⟩ | ⟨hp, p, rfl, _⟩
              · cases hq
              · simp only [List.mem_singleton] at hq
                subst hq
                exact ⟨Nat.le_refl _, fun h => absurd hp h⟩
            · have := (a4 q hq).1
              exact ⟨by omega, fun _ => by omega⟩
          · intro q hq
            rcases List.mem_append.1 hq with hq | hq
            · rcases h7 with ⟨_, rfl⟩ | ⟨hp, p, _, rfl⟩
              · cases hq
              · simp only [List.mem_singleton] at hq
                subst hq
                exact ⟨Nat.le_refl _, fun h => absurd hp h⟩
            · have := (a5 q hq).1
              exact ⟨by omega, fun _ => by omega⟩
          · intro hN hl hl' hlast T T' a a' f f' hT ha hT' ha' hf hf'
            rcases h6 with rfl | rfl
            · simp at hN hle
              omega
            · simp only [Option.toList, List.cons_append, List.nil_append, List.length_cons] at hN hT hT' ⊢
              have hle1 : ∀ q ∈ S1.packList, q.1 ≤ i + 1 := by
                intro q hq
                rw [h5] at hq
                rcases List.mem_append.1 hq with hq | hq
                · have := hl q hq; omega
                · rcases h7 with ⟨rfl, _⟩ | ⟨_, p, rfl, _⟩
                  · cases hq
                  · simp only [List.mem_singleton] at hq; subst hq; simp
              have hle2 : ∀ q ∈ l' ++ n', q.1 ≤ i' + 1 := by
                intro q hq
                rcases List.mem_append.1 hq with hq | hq
                · have := hl' q hq; omega
                · rcases h7 with ⟨_, rfl⟩ | ⟨_, p, _, rfl⟩
                  · cases hq
                  · simp only [List.mem_singleton] at hq; subst hq; simp
              have hla : lastPack S1.packList = lastPack (l' ++ n') := by
                rw [h5]
                rcases h7 with ⟨rfl, rfl⟩ | ⟨_, p, rfl, rfl⟩
                · simpa using hlast
                · simp [lastPack]
              have e1 : nlText (Out.blank :: r.2) = ['\n'] ++ nlText r.2 := rfl
              have e2 : nlText (Out.blank :: r'.2) = ['\n'] ++ nlText r'.2 := rfl
              have hu := a6 (by omega) hle1 hle2 hla T T' (a ++ ['\n']) (a' ++ ['\n']) f f' (by rw [hT, e1]; simp)
                (by simp [ha]) (by rw [hT', e2]; simp) (by simp [ha']) (by rw [h5, List.append_assoc]; exact hf)
                (by rw [List.append_assoc]; exact hf')
              rw [e1, e2]
              exact followsP_blank hu rfl rfl (.inr ⟨_, rfl⟩) (.inr ⟨_, rfl⟩)
  | .code ls ls' :: ps, hps, i, i', S, l', hP, hM => by
    obtain ⟨⟨hn, hn', hc, ht⟩, hnl, hend, hps⟩ := hps
    have ih := packed_run ps hps (i + ls.length) (i' + ls'.length) S l' hP hM
    have hle := ppRun_le (sem := sem) ((ps.flatMap Part.lines).map classify) (i + ls.length) S
    simp only [List.flatMap_cons, Part.lines, Part.lines', List.map_append]
    rw [classify_codes (ls := ls) (fun l hl => hc l (by simp [hl])), classify_codes (ls := ls') (fun l hl => hc l (by simp [hl]))]
    have hlen : 0 < ls.length := List.length_pos_iff.2 hn
    have hlen' : 0 < ls'.length := List.length_pos_iff.2 hn'
    cases e : S.ifTrue with
    | nil =>
      obtain ⟨l, ls, rfl⟩ := List.exists_cons_of_ne_nil hn
      obtain ⟨x, ls', rfl⟩ := List.exists_cons_of_ne_nil hn'
      simp [ppRun, ppStep, e, PackRun, PPState.withPacks]
    | cons b ts =>
      obtain ⟨g, hg, hg'⟩ : ∃ g, (∀ i l, ppStep sem i S (.code l) = .ok (S, some (g l))) ∧
          ((g = fun _ => Out.blank) ∨ g = fun l => Out.code (sem.expand S.env l)) := by
        cases b with
        | false => exact ⟨_, fun i l => by simp [ppStep, e], .inl rfl⟩
        | true => exact ⟨_, fun i l => by simp [ppStep, e], .inr rfl⟩
      have hg2 : ∀ i l, ppStep sem i (S.withPacks l') (.code l) = .ok (S.withPacks l', some (g l)) := fun i l => by
        rw [ppStep_with i i S l' (.code l) (fun _ => by simp), hg]
        rfl
      rw [code_run hg, code_run hg2]
      cases hr : ppRun sem (i + ls.length) S ((ps.flatMap Part.lines).map classify) with
      | error e =>
        cases hr' : ppRun sem (i' + ls'.length) (S.withPacks l') ((ps.flatMap Part.lines').map classify) with
        | error e' => simp only [hr, hr', PackRun] at ih; exact ih
        | ok r' => simp only [hr, hr', PackRun] at ih
      | ok r =>
        cases hr' : ppRun sem (i' + ls'.length) (S.withPacks l') ((ps.flatMap Part.lines').map classify) with
        | error e' => simp only [hr, hr', PackRun] at ih
        | ok r' =>
          simp only [hr, hr', PackRun] at ih
          obtain ⟨m, m', a1, a2, a3, a4, a5, a6⟩ := ih
          refine ⟨m, m', a1, a2, a3, fun q hq => ?_, fun q hq => ?_, ?_⟩
          · have := (a4 q hq).1
            exact ⟨by omega, fun _ => by omega⟩
          · have := (a5 q hq).1
            exact ⟨by omega, fun _ => by omega⟩
          · intro hN hl hl' hlast T T' a a' f f' hT ha hT' ha' hf hf'
            simp only [List.length_append, List.length_map] at hN
            rw [nlText_append] at hT hT' ⊢
            rw [nlText_append]
            have hcount : ∀ ks : List Str, (∀ l ∈ ks, '\n' ∉ sem.expand S.env l) → (nlText (ks.map g)).count '\n' = ks.length := by
              intro ks hk
              induction ks with
              | nil => rfl
              | cons l ks ih =>
                have h0 : (g l).text.count '\n' = 0 := by
                  rcases hg' with rfl | rfl
                  · rfl
                  · exact List.count_eq_zero.2 (hk l (by simp))
                have := ih (fun l hl => hk l (by simp [hl]))
                simp only [nlText, List.map_cons, List.flatMap_cons, List.count_append, List.count_cons_self, List.length_cons] at this ⊢
                omega
            have hu := a6 (by omega) (fun q hq => by have := hl q hq; omega) (fun q hq => by have := hl' q hq; omega) hlast T T'
              (a ++ nlText (ls.map g)) (a' ++ nlText (ls'.map g)) f f' (by rw [hT]; simp)
              (by rw [List.count_append, hcount ls (fun l hl => hnl _ hP l (by simp [hl]))]; omega) (by rw [hT']; simp)
              (by rw [List.count_append, hcount ls' (fun l hl => hnl _ hP l (by simp [hl]))]; omega) hf hf'
            rcases hg' with rfl | rfl
            · exact followsP_blank hu (nlText_blank ls) (nlText_blank ls') (by rw [← nlText_append]; exact nlText_eol _)
                (by rw [← nlText_append]; exact nlText_eol _)
            · have hj : ∀ ls : List Str, ls ≠ [] → nlText (ls.map fun l => Out.code (sem.expand S.env l)) =
                  '\n' :: joinC '\n' (ls.map (sem.expand S.env)) := fun ls h => by
                rw [nlText_join (by simpa using h), List.map_map]
                rfl
              rw [hj ls hn] at hT ⊢
              rw [hj ls' hn'] at hT' ⊢
              have key : ∀ ks : List Str, ∀ m : List (Nat × Option Nat), ∀ i : Nat, (StartsPragma ps → EndsBlank sem P ks) →
                  (∀ q ∈ m, i + ks.length ≤ q.1 ∧ (¬ StartsPragma ps → i + ks.length < q.1)) →
                  (∀ q ∈ m, i + (ks.map (sem.expand S.env)).length < q.1) ∨
                    ∀ l ∈ (ks.map (sem.expand S.env)).getLast?, l.all isWhite = true := by
                intro ks m i h1 h2
                by_cases hs : StartsPragma ps
                · right
                  intro l hl
                  rw [List.getLast?_map] at hl
                  obtain ⟨k, h3, rfl⟩ := Option.map_eq_some_iff.1 hl
                  exact h1 hs k h3 _ hP
                · left
                  intro q hq
                  rw [List.length_map]
                  exact (h2 q hq).2 hs
              refine followsP_text (ht S.env hP) hu (d := lastPack S.packList) ?_ ?_
              · refine packIs_lines (m := m) (T := T) (a := a) (i := i) ?_ (by rw [hT]; simp) ha hf hl ?_ (key ls m i (fun h => (hend h).1) a4)
                · intro l hl
                  obtain ⟨k, h1, rfl⟩ := List.mem_map.1 hl
                  exact hnl _ hP k (by simp [h1])
                · intro q hq
                  rw [List.length_map]
                  exact (a4 q hq).1
              · rw [hlast]
                refine packIs_lines (m := m') (T := T') (a := a') (i := i') ?_ (by rw [hT']; simp) ha' hf' hl' ?_
                  (key ls' m' i' (fun h => (hend h).2) a5)
                · intro l hl
                  obtain ⟨k, h1, rfl⟩ := List.mem_map.1 hl
                  exact hnl _ hP k (by simp [h1])
                · intro q hq
                  rw [List.length_map]
                  exact (a5 q hq).1
end

end Pyclib
