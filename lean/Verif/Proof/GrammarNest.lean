import Verif.Proof.GrammarExpr
import Verif.Proof.GrammarFuel
/-
Proof that the parser reads every text laid out from the tokens of a C declaration as that declaration:
brackets, literals and qualifiers.
-/
namespace Pyclib

open Spec

/-! ### Brackets -/

/-- The two kinds of brackets. -/
def Pair (o c : Char) : Prop := (o = '{' ∧ c = '}') ∨ (o = '(' ∧ c = ')')

/-- `nestLoop` with the length of the text as bound. -/
def nestF (o c : Char) (d : Nat) (s : Str) : Option Str := nestLoop o c s.length d s

section
variable {o c : Char}

theorem nestF_skip (d : Nat) {a : Char} (s : Str) (h : (a ≠ o && a ≠ c && a ≠ '"' && a ≠ '\'') = true) :
    nestF o c d (a :: s) = nestF o c d s := by
  simp only [Bool.and_eq_true, decide_eq_true_eq] at h
  obtain ⟨⟨⟨h1, h2⟩, h3⟩, h4⟩ := h
  simp [nestF, nestLoop, h1, h2, h3, h4]

theorem nestF_skips (d : Nat) : ∀ (w s : Str),
    w.all (fun a => a ≠ o && a ≠ c && a ≠ '"' && a ≠ '\'') = true → nestF o c d (w ++ s) = nestF o c d s
  | [], _, _ => rfl
  | a :: w, s, h => by
    simp only [List.all_cons, Bool.and_eq_true] at h
    rw [List.cons_append, nestF_skip d _ (by simpa using h.1)]
    exact nestF_skips d w s h.2

theorem nestF_open (hp : Pair o c) (d : Nat) (s : Str) : nestF o c d (o :: s) = nestF o c (d + 1) s := by
  rcases hp with ⟨rfl, rfl⟩ | ⟨rfl, rfl⟩ <;> simp [nestF, nestLoop]

theorem nestF_close (hp : Pair o c) (d : Nat) (s : Str) : nestF o c (d + 1) (c :: s) = nestF o c d s := by
  rcases hp with ⟨rfl, rfl⟩ | ⟨rfl, rfl⟩ <;> simp [nestF, nestLoop]

theorem nestF_end (hp : Pair o c) (s : Str) : nestF o c 0 (c :: s) = some s := by
  rcases hp with ⟨rfl, rfl⟩ | ⟨rfl, rfl⟩ <;> simp [nestF, nestLoop]

theorem nestF_ws (hp : Pair o c) (d : Nat) : ∀ (s : Str) (p : Char), nestF o c d (skipWs p s).rest = nestF o c d s
  | [], p => rfl
  | a :: s, p => by
    simp only [skipWs]
    split
    · rename_i h
      rw [nestF_ws hp d s a, nestF_skip]
      rcases hp with ⟨rfl, rfl⟩ | ⟨rfl, rfl⟩ <;> rcases isWhite_cases h with h | h | h | h <;> subst h <;> decide
    · rfl

theorem nestF_tok (hp : Pair o c) (d : Nat) {doc : Doc} {x : Pos} {t : Tk} {k : List Tk} (h : At doc x (t :: k)) :
    nestF o c d x.rest = nestF o c d (t.w ++ (adv x t).rest) := by
  rw [← h.start.rest]
  exact (nestF_ws hp d x.rest x.prev).symm

theorem nestF_lit (d : Nat) {q : Char} (hq : q = '"' ∨ q = '\'') {its : List Spec.Item} (hi : ∀ i ∈ its, Spec.Item.Ok q i) {r : Str}
    (hr : r.head? ≠ some q) : nestF o c d (Spec.litText q its ++ r) = nestF o c d r := by
  have h := quoted_lit hq hi hr
  have hb : (q = '"' || q = '\'') = true := by rcases hq with h | h <;> subst h <;> decide
  rw [nestF, Spec.litText, List.cons_append, List.length_cons, nestLoop_cons, if_pos hb, h]
  exact nestLoop_fuel _ _ d r (by simp; omega) (Nat.le_refl _)

theorem nestF_body (hp : Pair o c) {doc : Doc} {b : List Tk} (hb : Nest o c b) : ∀ (d : Nat) (x : Pos) (k : List Tk),
    k ≠ [] → At doc x (b ++ k) → nestF o c d x.rest = nestF o c d (advs x b).rest := by
  induction hb with
  | nil => intros; rfl
  | str t ts ht _ ih =>
    intro d x k hk h
    obtain ⟨q, its, hq, hi, e⟩ := ht
    rw [nestF_tok hp d h, e, nestF_lit d hq hi (after_lit h (by simp [hk]) hq e)]
    exact ih d _ k hk (At.tail h)
  | tok t ts ht _ ih =>
    intro d x k hk h
    rw [nestF_tok hp d h, nestF_skips d _ _ ht]
    exact ih d _ k hk (At.tail h)
  | block l r ts ts' hl hr _ _ ih ih' =>
    intro d x k hk h
    simp only [List.cons_append, List.append_assoc] at h
    have h1 := At.tail h
    have h2 := At.drop ts h1
    have h3 := At.tail h2
    rw [nestF_tok hp d h, hl]
    show nestF o c d (o :: _) = _
    rw [nestF_open hp]
    show nestF o c (d + 1) (adv x l).rest = _
    rw [ih (d + 1) _ _ (by simp) h1, nestF_tok hp (d + 1) h2, hr]
    show nestF o c (d + 1) (c :: _) = _
    rw [nestF_close hp]
    show nestF o c d (adv _ r).rest = _
    rw [ih' d _ _ hk h3]
    simp [advs, advs_append]

theorem nestedP_body (hp : Pair o c) {doc : Doc} {l r : Tk} {b k : List Tk} {x : Pos} (hl : l.w = [o]) (hr : r.w = [c])
    (hb : Nest o c b) (h : At doc x (l :: (b ++ r :: k))) :
    nestedP o c x = some (adv (advs (adv x l) b) r) := by
  have h1 := At.tail h
  have h2 := At.drop b h1
  have h3 : nestLoop o c (adv x l).rest.length 0 (adv x l).rest = some (adv (advs (adv x l) b) r).rest := by
    show nestF o c 0 _ = _
    rw [nestF_body hp hb 0 _ _ (by simp) h1, nestF_tok hp 0 h2, hr]
    exact nestF_end hp _
  simp only [nestedP, lit_yes h hl, h3, Option.map_some]
  rw [adv_sym (x := advs (adv x l) b) hr]

end

theorem nestedP_no {doc : Doc} {x : Pos} {t : Tk} {k : List Tk} (h : At doc x (t :: k)) (ht : t.hd ≠ '(') :
    nestedP '(' ')' x = none := by
  simp only [nestedP, lit_no h ht]

theorem hd_of_head {t : Tk} (h : t.w.head? ≠ some '(') (hw : t.hd = '(') : t.w = [] := by
  cases e : t.w with
  | nil => rfl
  | cons c w => rw [e] at h; rw [hd_of e] at hw; subst hw; simp at h

theorem joins_tail {g : Gram} {m : Tk} {ts k : List Tk} (h : Joins g (m :: ts) k) : Joins g ts k := by
  intro a b h1 h2 h3
  cases ts with
  | nil => cases h1
  | cons t ts => exact h a b (by rw [List.getLast?_cons_cons]; exact h1) h2 h3

theorem joins_tails {g : Gram} {k : List Tk} : ∀ {us ts : List Tk}, Joins g (us ++ ts) k → Joins g ts k
  | [], _, h => h
  | _ :: _, _, h => joins_tails (joins_tail h)

/-! ### Qualifiers -/

theorem attrOk_spec {g : Gram} {w : Str} (h : attrOk g w = true) : wordOk w = true ∧ w ∉ keywords g.cfg ∧
    ∃ c r, w = '_' :: '_' :: c :: r ∧ c.isAlphanum = true := by
  simp only [attrOk, Bool.and_eq_true, decide_eq_true_eq] at h
  obtain ⟨⟨⟨h1, h2⟩, h3⟩, h4⟩ := h
  refine ⟨h1, h4, ?_⟩
  rw [startsWith_iff] at h2
  obtain ⟨r, rfl⟩ := h2
  cases r with
  | nil => simp at h3
  | cons c r => exact ⟨c, r, rfl, by simpa using h3⟩

theorem alnum_white {c : Char} (h : c.isAlphanum = true) : isWhite c = false := by
  cases hw : isWhite c with
  | false => rfl
  | true => rcases isWhite_cases hw with e | e | e | e <;> subst e <;> exact absurd h (by decide)

theorem underIdent_attr {g : Gram} {doc : Doc} {x : Pos} {t : Tk} {k : List Tk} (h : At doc x (t :: k)) (hk : k ≠ [])
    (hu : attrOk g t.w = true) : underIdent g.cfg x = some (adv x t) := by
  obtain ⟨hw, hn, c, r, e, hc⟩ := attrOk_spec hu
  obtain ⟨h1, ⟨h2, _⟩, h3, h4⟩ := word_read h hk hw
  unfold underIdent
  simp only [h1, h2, Bool.false_eq_true, if_false, if_neg hn]
  have hr := h.start.rest
  rw [hr, e]
  have hs : startsWith ('_' :: '_' :: c :: r ++ (adv x t).rest) c%"__" = true := by rw [startsWith_iff]; exact ⟨c :: r ++ (adv x t).rest, rfl⟩
  rw [if_pos hs]
  have hsk : Pos.skip ⟨'_', ('_' :: '_' :: c :: r ++ (adv x t).rest).drop 2⟩ = ⟨'_', c :: r ++ (adv x t).rest⟩ := by
    simp [Pos.skip, skipWs, alnum_white hc]
  rw [hsk]
  simp only [List.cons_append, List.head?_cons, Option.any_some, hc, if_true]
  simp only [hr, e, List.cons_append] at h3 h4
  have hid : isIdC '_' = true := by decide
  rw [List.takeWhile_cons_of_pos hid, List.takeWhile_cons_of_pos hid] at h3
  rw [List.dropWhile_cons_of_pos hid, List.dropWhile_cons_of_pos hid] at h4
  simp only [List.cons.injEq, true_and] at h3
  rw [h3, h4]
  have ha : adv x t = ⟨t.w.getLastD ' ', (adv x t).rest⟩ := rfl
  rw [ha, e]
  simp [posAfter, List.getLastD_cons]

theorem quals_head {g : Gram} {t : Tk} {q : List Tk} {qs : List Str} (h : Quals g (t :: q) qs) : wordOk t.w = true := by
  cases h with
  | word _ _ _ h _ => exact qual_word h
  | attr _ _ _ h _ => exact (attrOk_spec h).1
  | call _ _ _ _ _ _ h _ _ _ _ => exact (attrOk_spec h).1

theorem word_not_paren {w : Str} (h : wordOk w = true) : w.head? ≠ some '(' := by
  cases w with
  | nil => simp
  | cons c w =>
    simp only [wordOk, List.all_cons, Bool.and_eq_true] at h
    intro e
    cases e
    exact absurd h.2.1 (by decide)

/-- No argument follows a qualifier without one. -/
theorem quals_next {g : Gram} {doc : Doc} {y : Pos} {u t : Tk} {q k : List Tk} {qs : List Str} (ha : attrOk g u.w = true)
    (hq : Quals g q qs) (hj : Joins g (u :: q) (t :: k)) (h : At doc y (q ++ t :: k)) : nestedP '(' ')' y = none := by
  cases q with
  | nil =>
    refine nestedP_no h fun e => ?_
    have := hj u t rfl (.inr ha) rfl
    exact h.start.ne (hd_of_head this e)
  | cons v q =>
    refine nestedP_no h fun e => ?_
    exact h.start.ne (hd_of_head (word_not_paren (quals_head hq)) e)

theorem qualLoop_read {g : Gram} {doc : Doc} {t : Tk} {k : List Tk} (hp : Plain g t k) {q : List Tk} {qs : List Str} (hq : Quals g q qs) :
    ∀ (x : Pos) (n : Nat), At doc x (q ++ t :: k) → Joins g q (t :: k) → q.length ≤ n →
      qualLoop g.cfg n x = (qs, advs x q) := by
  induction hq with
  | nil => intro x n h _ _; exact qualLoop_stop h hp n
  | word u q qs hu _ ih =>
    intro x n h hj hn
    obtain ⟨n, rfl⟩ : ∃ m, n = m + 1 := ⟨n - 1, by simp at hn; omega⟩
    have hne : q ++ t :: k ≠ [] := by simp
    have ih := ih (adv x u) n (At.tail h) (joins_tail hj) (by simpa using hn)
    simp only [qualLoop, underIdent_word h hne (qual_word hu) g.cfg (.inl (qual_keyword _ hu)),
      kwl_word h hne (qual_word hu), if_pos hu, ih]
    rfl
  | attr u q qs hu hq ih =>
    intro x n h hj hn
    obtain ⟨n, rfl⟩ : ∃ m, n = m + 1 := ⟨n - 1, by simp at hn; omega⟩
    have hne : q ++ t :: k ≠ [] := by simp
    have ih := ih (adv x u) n (At.tail h) (joins_tail hj) (by simpa using hn)
    simp only [qualLoop, underIdent_attr h hne hu, quals_next hu hq hj (At.tail h), ih]
    rfl
  | call u l r b q qs hu hl hr hb hq ih =>
    intro x n h hj hn
    obtain ⟨n, rfl⟩ : ∃ m, n = m + 1 := ⟨n - 1, by simp at hn; omega⟩
    simp only [List.cons_append, List.append_assoc] at h
    have h1 := At.tail h
    have hb' := nestedP_body (.inr ⟨rfl, rfl⟩) hl hr hb h1
    have h2 := At.tail (At.drop b (At.tail h1))
    have ih := ih _ n h2 (joins_tail (joins_tails (joins_tail (joins_tail hj)))) (by simp at hn; omega)
    simp only [qualLoop, underIdent_attr h (by simp) hu, hb', ih]
    simp [advs, advs_append]

theorem qualP_read {g : Gram} {doc : Doc} {x : Pos} {q : List Tk} {qs : List Str} {t : Tk} {k : List Tk}
    (h : At doc x (q ++ t :: k)) (hq : Quals g q qs) (hp : Plain g t k) (hj : Joins g q (t :: k)) :
    qualP g.cfg x = (qs, advs x q) := by
  refine qualLoop_read hp hq x _ h hj ?_
  have := At.length h
  simp at this
  omega

end Pyclib
