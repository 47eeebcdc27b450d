import Verif.Spec.Repr
import Verif.Proof.PPText
/-! Reading what `repr` writes. -/
namespace Pyclib
open Spec

theorem rdStr_esc {q : Char} (hq : q = '\'' ∨ q = '"') (r : Str) : ∀ s : Str,
    rdStr q (s.flatMap (escC q) ++ q :: r) = some (s, r)
  | [] => by
    rcases hq with rfl | rfl <;> simp [rdStr]
  | c :: s => by
    have ih := rdStr_esc hq r s
    rw [List.flatMap_cons, List.append_assoc]
    generalize List.flatMap (escC q) s ++ q :: r = T at ih ⊢
    unfold escC
    by_cases h1 : c = q ∨ c = '\\'
    · rw [if_pos h1]
      have : unesc c = some c := by
        rcases h1 with rfl | rfl
        · rcases hq with rfl | rfl <;> rfl
        · rfl
      simp [rdStr, this, ih]
    · rw [if_neg h1]
      by_cases h2 : c = '\n'
      · subst h2; simp [rdStr, unesc, ih]
      · rw [if_neg h2]
        by_cases h3 : c = '\r'
        · subst h3; simp [rdStr, unesc, ih]
        · rw [if_neg h3]
          by_cases h4 : c = '\t'
          · subst h4; simp [rdStr, unesc, ih]
          · rw [if_neg h4]
            simp only [not_or] at h1
            rw [List.cons_append, List.nil_append, rdStr.eq_def]
            split
            · next h => cases h
            · next h => exact absurd (List.cons.inj h).1 h1.2
            · next h => exact absurd (List.cons.inj h).1 h1.2
            · next h =>
              obtain ⟨rfl, rfl⟩ := List.cons.inj h
              rw [if_neg h1.1, if_neg h2, ih]

theorem quoteOf_cases (s : Str) : quoteOf s = '\'' ∨ quoteOf s = '"' := by
  unfold quoteOf; split <;> simp

theorem takeWhile_stop {p : Char → Bool} {w r : Str} (hw : w.all p = true) (hr : r.head?.any p = false) :
    (w ++ r).takeWhile p = w ∧ (w ++ r).dropWhile p = r := by
  have hw' : ∀ c ∈ w, p c = true := by simpa using hw
  constructor
  · rw [List.takeWhile_append_of_pos hw']
    cases r with
    | nil => simp
    | cons c r => simp at hr; simp [List.takeWhile_cons, hr]
  · rw [List.dropWhile_append_of_pos hw']
    cases r with
    | nil => simp
    | cons c r => simp at hr; simp [List.dropWhile_cons, hr]

theorem natDigits_all (n : Nat) : (natDigits n).all Char.isDigit = true := by
  rw [List.all_eq_true]; exact fun c hc => natDigits_digit hc

theorem rdNat_digits (n : Nat) {r : Str} (hr : r.head?.any Char.isDigit = false) :
    rdNat (natDigits n ++ r) = some (n, r) := by
  obtain ⟨h1, h2⟩ := takeWhile_stop (natDigits_all n) hr
  unfold rdNat
  simp only [h1, h2]
  rw [if_neg, digitsVal_natDigits]
  rintro (h | h)
  · exact natDigits_nonempty n h
  · by_cases hn : n = 0
    · subst hn; exact h.2 rfl
    · exact natDigits_head n hn h.1

/-- What may follow an expression. -/
def Delim (r : Str) : Prop := r = [] ∨ ∃ c r', r = c :: r' ∧ (c = ',' ∨ c = ')' ∨ c = ']' ∨ c = '}')

theorem Delim.word {r : Str} (h : Delim r) : r.head?.any isWordC = false := by
  rcases h with rfl | ⟨c, r, rfl, rfl | rfl | rfl | rfl⟩ <;> rfl

theorem Delim.digit {r : Str} (h : Delim r) : r.head?.any Char.isDigit = false := by
  rcases h with rfl | ⟨c, r, rfl, rfl | rfl | rfl | rfl⟩ <;> rfl

/-- How an expression begins. -/
def Front (c : Char) : Prop := c ≠ ' ' ∧ c ≠ ',' ∧ c ≠ ')' ∧ c ≠ ']' ∧ c ≠ '}'

theorem front_digit {c : Char} (h : c.isDigit = true) : Front c := by
  refine ⟨?_, ?_, ?_, ?_, ?_⟩ <;> (rintro rfl; simp [Char.isDigit] at h)

theorem natDigits_cons (n : Nat) : ∃ c s, natDigits n = c :: s ∧ c.isDigit = true := by
  cases h : natDigits n with
  | nil => exact absurd h (natDigits_nonempty n)
  | cons c s => exact ⟨c, s, rfl, natDigits_digit (n := n) (by rw [h]; simp)⟩

theorem reprInt_front (i : Int) : ∃ c s, reprInt i = c :: s ∧ Front c := by
  unfold reprInt
  split
  · exact ⟨_, _, rfl, by unfold Front; decide⟩
  · obtain ⟨c, s, h, hc⟩ := natDigits_cons i.natAbs
    exact ⟨c, s, h, front_digit hc⟩

theorem quote_front (s : Str) : Front (quoteOf s) := by
  rcases quoteOf_cases s with h | h <;> rw [h] <;> unfold Front <;> decide

theorem repr_front (v : PyObj) : ∃ c s, v.repr = c :: s ∧ Front c := by
  cases v with
  | none => exact ⟨_, _, rfl, by unfold Front; decide⟩
  | int i => exact reprInt_front i
  | str s => exact ⟨_, _, rfl, quote_front s⟩
  | tup l => exact ⟨'(', l.repr ++ oneComma l ++ c%")", by simp [PyObj.repr], by unfold Front; decide⟩
  | lst l => exact ⟨'[', l.repr ++ c%"]", by simp [PyObj.repr], by unfold Front; decide⟩
  | dict d =>
    cases d with
    | nil => exact ⟨_, _, rfl, by unfold Front; decide⟩
    | cons k v d => exact ⟨'{', _, rfl, by unfold Front; decide⟩
  | type items quals => exact ⟨'T', _, rfl, by unfold Front; decide⟩
  | comp u m p =>
    cases u
    · exact ⟨'S', _, by rw [PyObj.repr]; rfl, by unfold Front; decide⟩
    · exact ⟨'U', _, by rw [PyObj.repr]; rfl, by unfold Front; decide⟩

theorem skipB_front {c : Char} (h : Front c) (s : Str) : skipB (c :: s) = c :: s := by
  unfold skipB; rw [List.dropWhile_cons, if_neg]; simpa using h.1

theorem rdKw_word {w : Str} {c : Char} {r : Str} (hw : w.all isWordC = true) (hc : isWordC c = false)
    (he : c ≠ '=') : rdKw (w ++ c :: r) = none := by
  obtain ⟨h1, h2⟩ := takeWhile_stop (r := c :: r) hw (by simpa using hc)
  unfold rdKw
  simp only [h1, h2]
  split
  · rfl
  · split
    · next h => cases h; exact absurd rfl he
    · rfl

theorem rdKw_delim {w r : Str} (hw : w.all isWordC = true) (hr : Delim r) : rdKw (w ++ r) = none := by
  rcases hr with rfl | ⟨c, r, rfl, hc⟩
  · obtain ⟨h1, h2⟩ := takeWhile_stop (r := []) hw rfl
    unfold rdKw
    simp only [h1, h2]
    split <;> rfl
  · exact rdKw_word hw (by rcases hc with rfl | rfl | rfl | rfl <;> rfl)
      (by rcases hc with rfl | rfl | rfl | rfl <;> decide)

theorem rdKw_not {c : Char} (h : isWordC c = false) (r : Str) : rdKw (c :: r) = none := by
  unfold rdKw; simp [h]

theorem natDigits_word (n : Nat) : (natDigits n).all isWordC = true := by
  rw [List.all_eq_true]; exact fun c hc => isWordC_of_digit (natDigits_digit hc)

theorem rdKw_repr (v : PyObj) {r : Str} (hr : Delim r) : rdKw (v.repr ++ r) = none := by
  cases v with
  | none => exact rdKw_delim (w := c%"None") (by decide) hr
  | int i =>
    show rdKw (reprInt i ++ r) = none
    unfold reprInt
    split
    · exact rdKw_not (by decide) _
    · exact rdKw_delim (natDigits_word _) hr
  | str s =>
    show rdKw (quoteOf s :: _) = none
    exact rdKw_not (by rcases quoteOf_cases s with h | h <;> rw [h] <;> decide) _
  | tup l =>
    simp only [PyObj.repr, List.append_assoc]
    exact rdKw_not (c := '(') (by decide) _
  | lst l =>
    simp only [PyObj.repr, List.append_assoc]
    exact rdKw_not (c := '[') (by decide) _
  | dict d =>
    cases d with
    | nil => exact rdKw_not (c := '{') (by decide) _
    | cons k v d =>
      simp only [PyObj.repr, List.append_assoc]
      exact rdKw_not (c := '{') (by decide) _
  | type items quals =>
    simp only [PyObj.repr, List.append_assoc]
    exact rdKw_word (w := c%"Type") (c := '(') (by decide) (by decide) (by decide)
  | comp u m p =>
    cases u
    · rw [PyObj.repr]; simp only [List.append_assoc]
      exact rdKw_word (w := c%"Struct") (c := '(') (by decide) (by decide) (by decide)
    · rw [PyObj.repr]; simp only [List.append_assoc]
      exact rdKw_word (w := c%"Union") (c := '(') (by decide) (by decide) (by decide)

mutual
/-- Calls needed to read an object. -/
def costV : PyObj → Nat
  | .none | .int _ | .str _ => 1
  | .tup l => 1 + costL l
  | .lst l => 1 + costL l
  | .dict d => 1 + costD d
  | .type items quals => 1 + costL items + (if quals.any then 2 + costL quals else 0)
  | .comp _ members pack => 1 + costL members + 1 + costV pack
def costL : PyObjs → Nat
  | .nil => 1
  | .cons v l => 1 + costV v + costL l
def costD : PyDict → Nat
  | .nil => 1
  | .cons _ v d => 1 + costV v + costD d
end

mutual
theorem costV_le : ∀ v : PyObj, costV v ≤ 3 * v.repr.length
  | .none => by decide
  | .int i => by
    obtain ⟨c, s, h, -⟩ := reprInt_front i
    simp [costV, PyObj.repr, h]; omega
  | .str s => by simp [costV, PyObj.repr, reprStr]; omega
  | .tup l => by
    have := costL_le l
    simp [costV, PyObj.repr]; omega
  | .lst l => by
    have := costL_le l
    simp [costV, PyObj.repr]; omega
  | .dict .nil => by decide
  | .dict (.cons k v d) => by
    have h1 := costV_le v
    have h2 := costD_le d
    simp [costV, costD, PyObj.repr]; omega
  | .type items quals => by
    have h1 := costL_le items
    have h2 := costL_le quals
    unfold costV PyObj.repr
    split <;> simp <;> omega
  | .comp u members pack => by
    have h1 := costL_le members
    have h2 := costV_le pack
    unfold costV PyObj.repr
    cases hp : pack.isNone
    · cases u <;> simp <;> omega
    · have : pack = .none := by cases pack <;> simp_all [PyObj.isNone]
      subst this
      cases u <;> simp [costV] <;> omega
theorem costL_le : ∀ l : PyObjs, costL l ≤ 2 + 3 * l.repr.length
  | .nil => by decide
  | .cons v l => by
    have h1 := costV_le v
    have h2 := costT_le l
    simp [costL, PyObjs.repr]; omega
theorem costT_le : ∀ l : PyObjs, costL l ≤ 1 + 3 * l.reprTail.length
  | .nil => by decide
  | .cons v l => by
    have h1 := costV_le v
    have h2 := costT_le l
    simp [costL, PyObjs.reprTail]; omega
theorem costD_le : ∀ d : PyDict, costD d ≤ 1 + 3 * d.reprTail.length
  | .nil => by decide
  | .cons k v d => by
    have h1 := costV_le v
    have h2 := costD_le d
    simp [costD, PyDict.reprTail]; omega
end

/-! ### Reading back -/

theorem rdSeq_blank (f : Nat) (cl : Char) (s : Str) : rdSeq f cl (' ' :: s) = rdSeq f cl s := by
  cases f with
  | zero => rfl
  | succ f =>
    have : skipB (' ' :: s) = skipB s := by simp [skipB]
    unfold rdSeq; rw [this]

theorem rdArgs_blank (f : Nat) (s : Str) : rdArgs f (' ' :: s) = rdArgs f s := by
  cases f with
  | zero => rfl
  | succ f =>
    have : skipB (' ' :: s) = skipB s := by simp [skipB]
    unfold rdArgs; rw [this]

theorem rdDict_blank (f : Nat) (s : Str) : rdDict f (' ' :: s) = rdDict f s := by
  cases f with
  | zero => rfl
  | succ f =>
    have : skipB (' ' :: s) = skipB s := by simp [skipB]
    unfold rdDict; rw [this]

theorem rd_blank (f : Nat) (s : Str) : rd f (' ' :: s) = rd f s := by
  cases f with
  | zero => rfl
  | succ f =>
    have : skipB (' ' :: s) = skipB s := by simp [skipB]
    unfold rd; rw [this]

/-- Reading the text of an object, whatever follows. -/
def ReadsV (v : PyObj) : Prop := ∀ f r, costV v ≤ f → Delim r → rd f (v.repr ++ r) = some (v, r)

/-- Reading the text of a sequence, with and without a comma at the end. -/
def ReadsL (l : PyObjs) : Prop := l ≠ .nil → ∀ f cl r, costL l ≤ f → (cl = ')' ∨ cl = ']') →
  rdSeq f cl (l.repr ++ cl :: r) = some (l, false, r) ∧
  rdSeq f cl (l.repr ++ ',' :: cl :: r) = some (l, true, r)

/-- What follows the positional arguments. -/
def ArgsEnd (T : Str) (n : Nat) (d : PyDict) (r : Str) : Prop :=
  (T = ')' :: r ∧ d = .nil) ∨ ∃ T', T = ',' :: T' ∧ ∀ f, n ≤ f → rdArgs f T' = some (.nil, d, r)

theorem ArgsEnd.delim {T : Str} {n : Nat} {d : PyDict} {r : Str} (h : ArgsEnd T n d r) : Delim T := by
  rcases h with ⟨rfl, -⟩ | ⟨T', rfl, -⟩
  · exact .inr ⟨_, _, rfl, by simp⟩
  · exact .inr ⟨_, _, rfl, by simp⟩

/-- Reading the text of positional arguments. -/
def ReadsA (l : PyObjs) : Prop := l ≠ .nil → ∀ f T n d r, costL l + n ≤ f → ArgsEnd T n d r →
  rdArgs f (l.repr ++ T) = some (l, d, r)

/-- Reading the text of a dictionary. -/
def ReadsD (d : PyDict) : Prop := ∀ k v f r, ReadsV v → costV v + costD d + 1 ≤ f →
  rdDict f (reprStr k ++ c%": " ++ v.repr ++ d.reprTail ++ '}' :: r) = some (.cons k v d, r)

theorem reprTail_ne {l : PyObjs} (h : l ≠ .nil) : l.reprTail = ',' :: ' ' :: l.repr := by
  cases l with
  | nil => exact absurd rfl h
  | cons v l => simp [PyObjs.reprTail, PyObjs.repr]

theorem tail_delim (l : PyObjs) {T : Str} (h : Delim T) : Delim (l.reprTail ++ T) := by
  cases l with
  | nil => exact h
  | cons v l => exact .inr ⟨',', _, by simp [PyObjs.reprTail]; rfl, by simp⟩

theorem front_cl {c cl : Char} (h : Front c) (hc : cl = ')' ∨ cl = ']') : c ≠ cl := by
  rcases hc with rfl | rfl
  · exact h.2.2.1
  · exact h.2.2.2.1

theorem cl_front {cl : Char} (hc : cl = ')' ∨ cl = ']') (r : Str) : skipB (cl :: r) = cl :: r ∧ cl ≠ ',' ∧ Delim (cl :: r) := by
  rcases hc with rfl | rfl
  · exact ⟨rfl, by decide, .inr ⟨_, _, rfl, by simp⟩⟩
  · exact ⟨rfl, by decide, .inr ⟨_, _, rfl, by simp⟩⟩

theorem readsL_cons {v : PyObj} {l : PyObjs} (hv : ReadsV v) (hl : ReadsL l) : ReadsL (.cons v l) := by
  intro _ f cl r hf hcl
  simp only [costL] at hf
  obtain ⟨f, rfl⟩ : ∃ g, f = g + 1 := ⟨f - 1, by omega⟩
  obtain ⟨c, s, hc, hfr⟩ := repr_front v
  obtain ⟨k1, k2, k3⟩ := cl_front hcl r
  have key : ∀ T, Delim (l.reprTail ++ T) → rdSeq (f + 1) cl ((PyObjs.cons v l).repr ++ T) =
      match skipB (l.reprTail ++ T) with
      | [] => none
      | d :: r =>
        if d = ',' then
          match rdSeq f cl r with
          | some (l, b, r) => some (.cons v l, b, r)
          | none => none
        else if d = cl then some (.cons v .nil, false, r)
        else none := by
    intro T hT
    have hr := hv f (l.reprTail ++ T) (by omega) hT
    rw [hc] at hr
    rw [rdSeq, PyObjs.repr, hc, List.append_assoc, List.cons_append, skipB_front hfr]
    dsimp only
    rw [if_neg (front_cl hfr hcl), ← List.cons_append, hr]
    rfl
  by_cases hn : l = .nil
  · subst hn
    have k5 : ∀ f, rdSeq (f + 1) cl (cl :: r) = some (.nil, true, r) := by
      intro f; rw [rdSeq, k1]; dsimp only; rw [if_pos rfl]
    constructor
    · rw [key _ (by simpa [PyObjs.reprTail] using k3)]
      simp [PyObjs.reprTail, k1, k2]
    · rw [key _ (.inr ⟨',', _, by simp [PyObjs.reprTail]; rfl, by simp⟩)]
      obtain ⟨f, rfl⟩ : ∃ g, f = g + 1 := ⟨f - 1, by simp only [costL] at hf; omega⟩
      simp [PyObjs.reprTail, skipB, k5]
  · obtain ⟨h1, h2⟩ := hl hn f cl r (by omega) hcl
    have sk : ∀ T, skipB (l.reprTail ++ T) = ',' :: ' ' :: (l.repr ++ T) := by
      intro T; rw [reprTail_ne hn]; simp [skipB]
    constructor
    · rw [key _ (tail_delim l k3), sk]
      simp [rdSeq_blank, h1]
    · rw [key _ (tail_delim l (.inr ⟨',', _, rfl, by simp⟩)), sk]
      simp [rdSeq_blank, h2]

theorem readsA_cons {v : PyObj} {l : PyObjs} (hv : ReadsV v) (hl : ReadsA l) : ReadsA (.cons v l) := by
  intro _ f T n d r hf hT
  simp only [costL] at hf
  obtain ⟨f, rfl⟩ : ∃ g, f = g + 1 := ⟨f - 1, by omega⟩
  obtain ⟨c, s, hc, hfr⟩ := repr_front v
  have hd := tail_delim l hT.delim
  have hr := hv f (l.reprTail ++ T) (by omega) hd
  have hk := rdKw_repr v hd
  rw [hc] at hr hk
  rw [rdArgs, PyObjs.repr, hc, List.append_assoc, List.cons_append, skipB_front hfr]
  dsimp only
  rw [if_neg hfr.2.2.1, ← List.cons_append, hk]
  dsimp only
  rw [hr]
  dsimp only
  by_cases hn : l = .nil
  · subst hn
    rcases hT with ⟨rfl, rfl⟩ | ⟨T', rfl, h⟩
    · simp [PyObjs.reprTail, skipB]
    · simp [PyObjs.reprTail, skipB, h f (by omega)]
  · rw [reprTail_ne hn]
    simp [skipB, rdArgs_blank, hl hn f T n d r (by omega) hT]

theorem readsV_tup {l : PyObjs} (hl : ReadsL l) (r : Str) (f : Nat) (hf : 1 + costL l ≤ f) :
    rd f (c%"(" ++ l.repr ++ oneComma l ++ c%")" ++ r) = some (.tup l, r) := by
  obtain ⟨f, rfl⟩ : ∃ g, f = g + 1 := ⟨f - 1, by omega⟩
  rw [rd]
  have : skipB (c%"(" ++ l.repr ++ oneComma l ++ c%")" ++ r) = '(' :: (l.repr ++ oneComma l ++ ')' :: r) := by
    simp [skipB]
  rw [this]
  dsimp only
  rw [if_pos rfl]
  cases l with
  | nil =>
    obtain ⟨f, rfl⟩ : ∃ g, f = g + 1 := ⟨f - 1, by simp only [costL] at hf; omega⟩
    simp [PyObjs.repr, oneComma, rdSeq, skipB]
  | cons v l =>
    obtain ⟨h1, h2⟩ := hl (by simp) f ')' r (by omega) (.inl rfl)
    cases l with
    | nil =>
      have : (PyObjs.cons v .nil).repr ++ oneComma (.cons v .nil) ++ ')' :: r = (PyObjs.cons v .nil).repr ++ ',' :: ')' :: r := by
        simp [oneComma]
      rw [this, h2]
    | cons w l =>
      have : (PyObjs.cons v (.cons w l)).repr ++ oneComma (.cons v (.cons w l)) ++ ')' :: r =
          (PyObjs.cons v (.cons w l)).repr ++ ')' :: r := by
        simp [oneComma]
      rw [this, h1]

theorem readsV_call {w : Str} (hw : w.all isWordC = true) (hw2 : w ≠ c%"None") {c : Char} {s : Str} (hc : w = c :: s)
    (hfr : Front c) (hc2 : c ≠ '(' ∧ c ≠ '[' ∧ c ≠ '{' ∧ c ≠ '\'' ∧ c ≠ '"' ∧ c ≠ '-' ∧ c.isDigit = false)
    {T r : Str} {a : PyObjs} {kw : PyDict} {v : PyObj} {f : Nat} (h : rdArgs f T = some (a, kw, r))
    (ha : applyCls w a kw = some v) : rd (f + 1) (w ++ '(' :: T) = some (v, r) := by
  obtain ⟨h1, h2⟩ := takeWhile_stop (r := '(' :: T) hw rfl
  have hwc : isWordC c = true := by rw [hc] at hw; simp at hw; exact hw.1
  rw [hc] at h1 h2
  rw [rd, hc, List.cons_append, skipB_front hfr]
  dsimp only
  rw [if_neg hc2.1, if_neg hc2.2.1, if_neg hc2.2.2.1, if_neg (by simp [hc2]), if_neg hc2.2.2.2.2.2.1, if_neg (by simp [hc2]),
    if_pos hwc, ← List.cons_append, h1, h2, ← hc]
  rw [if_neg hw2]
  simp only [h, ha]

theorem len_noQuals : ∀ n, Spec.PyObjs.len (noQuals n) = n
  | 0 => rfl
  | n + 1 => by simp [noQuals, Spec.PyObjs.len, len_noQuals n]

/-- The text of a type is read up to its closing parenthesis, whatever follows. -/
theorem reads_type {items quals : PyObjs} (hi : ReadsA items) (hq : ReadsL quals) (h1 : items ≠ .nil)
    (h2 : Spec.PyObjs.len quals = Spec.PyObjs.len items) (h3 : quals.any = false → quals = noQuals (Spec.PyObjs.len quals))
    (f : Nat) (r : Str) (hf : costV (.type items quals) ≤ f) :
    rd f ((PyObj.type items quals).repr ++ r) = some (.type items quals, r) := by
  simp only [costV] at hf
  obtain ⟨f, rfl⟩ : ∃ g, f = g + 1 := ⟨f - 1, by omega⟩
  rw [PyObj.repr]
  obtain ⟨x, xs, rfl⟩ : ∃ x xs, items = .cons x xs := by
    cases items with
    | nil => exact absurd rfl h1
    | cons x xs => exact ⟨x, xs, rfl⟩
  by_cases hq' : quals.any = true
  · rw [if_pos hq'] at hf ⊢
    have hend : ArgsEnd (c%", type_quals=" ++ (c%"(" ++ quals.repr ++ oneComma quals ++ c%")") ++ ')' :: r)
        (2 + costL quals) (.cons c%"type_quals" (.tup quals) .nil) r := by
      refine .inr ⟨_, by simp; rfl, fun g hg => ?_⟩
      obtain ⟨g, rfl⟩ : ∃ h, g = h + 1 := ⟨g - 1, by omega⟩
      have := readsV_tup hq (')' :: r) g (by omega)
      rw [rdArgs_blank, rdArgs]
      have e : rdKw (c%"type_quals=" ++ (c%"(" ++ quals.repr ++ oneComma quals ++ c%")") ++ ')' :: r) =
          some (c%"type_quals", c%"(" ++ quals.repr ++ oneComma quals ++ c%")" ++ ')' :: r) := by
        simp [rdKw, isWordC]
      simp only [List.append_assoc, List.cons_append, List.nil_append] at e this ⊢
      rw [skipB_front (by unfold Front; decide)]
      dsimp only
      rw [if_neg (by decide), e]
      dsimp only
      rw [this]
      simp [skipB]
    have ha := hi h1 f _ _ _ _ (by omega) hend
    have := readsV_call (w := c%"Type") (by decide) (by decide) rfl (by unfold Front; decide) (by decide) ha
      (v := .type (.cons x xs) quals) (by
        have ht : (PyObj.tup quals).truthy = true := by cases quals <;> simp_all [PyObj.truthy, PyObjs.any]
        simp [applyCls, typeCls, ht, h2, Spec.PyObjs.len])
    simpa using this
  · rw [if_neg hq'] at hf ⊢
    have hend : ArgsEnd (')' :: r) 0 .nil r := .inl ⟨rfl, rfl⟩
    have ha := hi h1 f _ _ _ _ (by omega) hend
    have := readsV_call (w := c%"Type") (by decide) (by decide) rfl (by unfold Front; decide) (by decide) ha
      (v := .type (.cons x xs) quals) (by
        have := h3 (by simpa using hq')
        simp only [Spec.PyObjs.len] at h2
        simp only [applyCls, if_true, typeCls]
        rw [← h2, ← this])
    simpa using this

theorem readsV_type {items quals : PyObjs} (hi : ReadsA items) (hq : ReadsL quals) (h1 : items ≠ .nil)
    (h2 : Spec.PyObjs.len quals = Spec.PyObjs.len items) (h3 : quals.any = false → quals = noQuals (Spec.PyObjs.len quals)) :
    ReadsV (.type items quals) := fun f r hf _ => reads_type hi hq h1 h2 h3 f r hf

theorem readsV_comp {u : Bool} {members : PyObjs} {pack : PyObj} (hm : ReadsA members) (hp : ReadsV pack)
    (h : members = .nil → pack = .none) : ReadsV (.comp u members pack) := by
  intro f r hf hr
  simp only [costV] at hf
  obtain ⟨f, rfl⟩ : ∃ g, f = g + 1 := ⟨f - 1, by omega⟩
  rw [PyObj.repr]
  have fin : ∀ (T : Str) (kw : PyDict), rdArgs f T = some (members, kw, r) →
      (kw = .nil ∧ pack = .none ∨ kw = .cons c%"pack" pack .nil) →
      rd (f + 1) ((if u then c%"Union" else c%"Struct") ++ '(' :: T) = some (.comp u members pack, r) := by
    intro T kw h1 h2
    cases u
    · refine readsV_call (w := c%"Struct") (by decide) (by decide) rfl (by unfold Front; decide) (by decide) h1 ?_
      rcases h2 with ⟨rfl, rfl⟩ | rfl <;> simp [applyCls, compCls]
    · refine readsV_call (w := c%"Union") (by decide) (by decide) rfl (by unfold Front; decide) (by decide) h1 ?_
      rcases h2 with ⟨rfl, rfl⟩ | rfl <;> simp [applyCls, compCls]
  by_cases hn : members = .nil
  · have := h hn
    subst hn this
    obtain ⟨f, rfl⟩ : ∃ g, f = g + 1 := ⟨f - 1, by simp only [costL] at hf; omega⟩
    have := fin (')' :: r) .nil (by simp [rdArgs, skipB]) (.inl ⟨rfl, rfl⟩)
    simpa [PyObj.isNone, PyObjs.repr] using this
  · cases hpn : pack.isNone
    · have hend : ArgsEnd (c%", pack=" ++ pack.repr ++ ')' :: r) (1 + costV pack) (.cons c%"pack" pack .nil) r := by
        refine .inr ⟨_, by simp; rfl, fun g hg => ?_⟩
        obtain ⟨g, rfl⟩ : ∃ h, g = h + 1 := ⟨g - 1, by omega⟩
        have := hp g (')' :: r) (by omega) (.inr ⟨_, _, rfl, by simp⟩)
        rw [rdArgs_blank, rdArgs]
        have e : rdKw (c%"pack=" ++ pack.repr ++ ')' :: r) = some (c%"pack", pack.repr ++ ')' :: r) := by
          simp [rdKw, isWordC]
        simp only [List.append_assoc, List.cons_append, List.nil_append] at e this ⊢
        rw [skipB_front (by unfold Front; decide)]
        dsimp only
        rw [if_neg (by decide), e]
        dsimp only
        rw [this]
        simp [skipB]
      have ha := hm hn f _ _ _ _ (by omega) hend
      have := fin _ _ ha (.inr rfl)
      simpa using this
    · have : pack = .none := by cases pack <;> simp_all [PyObj.isNone]
      have hend : ArgsEnd (')' :: r) 0 .nil r := .inl ⟨rfl, rfl⟩
      have ha := hm hn f _ _ _ _ (by omega) hend
      have := fin _ _ ha (.inl ⟨rfl, this⟩)
      simpa using this

theorem rd_str (s : Str) (f : Nat) (r : Str) : rd (f + 1) (reprStr s ++ r) = some (.str s, r) := by
  have h := rdStr_esc (quoteOf_cases s) r s
  rw [rd]
  unfold reprStr
  rw [List.cons_append, skipB_front (quote_front s), List.append_assoc, List.cons_append, List.nil_append]
  dsimp only
  rcases quoteOf_cases s with e | e
  · rw [e] at h ⊢; simp [h]
  · rw [e] at h ⊢; simp [h]

theorem rd_int (i : Int) (f : Nat) {r : Str} (hr : Delim r) : rd (f + 1) (reprInt i ++ r) = some (.int i, r) := by
  have h := rdNat_digits i.natAbs hr.digit
  unfold reprInt
  split
  · next hi =>
    rw [rd, List.cons_append, skipB_front (by unfold Front; decide)]
    simp only [h]
    have : -((i.natAbs : Nat) : Int) = i := by omega
    simp [this]
  · next hi =>
    obtain ⟨c, s, hc, hd⟩ := natDigits_cons i.natAbs
    rw [hc] at h ⊢
    have ne : ∀ d : Char, d.isDigit = false → c ≠ d := by rintro d hd' rfl; rw [hd] at hd'; cases hd'
    rw [rd, List.cons_append, skipB_front (front_digit hd)]
    dsimp only
    rw [if_neg (ne _ (by decide)), if_neg (ne _ (by decide)), if_neg (ne _ (by decide)),
      if_neg (by simp [ne '\'' (by decide), ne '"' (by decide)]), if_neg (ne _ (by decide)), if_pos hd, ← List.cons_append, h]
    have : ((i.natAbs : Nat) : Int) = i := by omega
    simp [this]

theorem rdDict_entry {k : Str} {v : PyObj} (hv : ReadsV v) (f : Nat) (T : Str) (hf : costV v ≤ f) (hT : Delim T) :
    rdDict (f + 1) (reprStr k ++ c%": " ++ v.repr ++ T) =
      match skipB T with
      | ',' :: r =>
        match rdDict f r with
        | some (d, r) => some (.cons k v d, r)
        | none => none
      | '}' :: r => some (.cons k v .nil, r)
      | _ => none := by
  have hs := rdStr_esc (quoteOf_cases k) (c%": " ++ v.repr ++ T) k
  have hr := hv f T hf hT
  rw [rdDict]
  have e : reprStr k ++ c%": " ++ v.repr ++ T =
      quoteOf k :: (k.flatMap (escC (quoteOf k)) ++ quoteOf k :: (c%": " ++ v.repr ++ T)) := by simp [reprStr]
  rw [e, skipB_front (quote_front k)]
  dsimp only
  rw [if_neg (quote_front k).2.2.2.2, if_pos (quoteOf_cases k), hs]
  have e2 : skipB (c%": " ++ v.repr ++ T) = ':' :: ' ' :: (v.repr ++ T) := by simp [skipB]
  dsimp only
  rw [e2]
  simp only [rd_blank, hr]
  rfl

theorem readsD_nil : ReadsD .nil := by
  intro k v f r hv hf
  obtain ⟨f, rfl⟩ : ∃ g, f = g + 1 := ⟨f - 1, by omega⟩
  have := rdDict_entry (k := k) hv f ('}' :: r) (by omega) (.inr ⟨_, _, rfl, by simp⟩)
  simpa [PyDict.reprTail, skipB] using this

theorem readsD_cons {k : Str} {v : PyObj} {d : PyDict} (hv : ReadsV v) (hd : ReadsD d) : ReadsD (.cons k v d) := by
  intro k' v' f r hv' hf
  simp only [costD] at hf
  obtain ⟨f, rfl⟩ : ∃ g, f = g + 1 := ⟨f - 1, by omega⟩
  have := rdDict_entry (k := k') hv' f ((PyDict.cons k v d).reprTail ++ '}' :: r) (by omega)
    (.inr ⟨',', _, by simp [PyDict.reprTail]; rfl, by simp⟩)
  have h2 := hd k v f r hv (by omega)
  rw [← List.append_assoc] at this
  rw [this]
  have e : skipB ((PyDict.cons k v d).reprTail ++ '}' :: r) =
      ',' :: ' ' :: (reprStr k ++ c%": " ++ v.repr ++ d.reprTail ++ '}' :: r) := by
    simp [skipB, PyDict.reprTail]
  rw [e]
  simp only [rdDict_blank, h2]

mutual
theorem readsV : ∀ v : PyObj, PyOk v → ReadsV v
  | .none, _ => by
    intro f r hf hr
    obtain ⟨f, rfl⟩ : ∃ g, f = g + 1 := ⟨f - 1, by simp only [costV] at hf; omega⟩
    obtain ⟨h1, h2⟩ := takeWhile_stop (w := c%"None") (by decide) hr.word
    rw [rd, PyObj.repr]
    simp only [List.cons_append, List.nil_append] at h1 h2 ⊢
    rw [skipB_front (by unfold Front; decide)]
    dsimp only
    rw [if_neg (by decide), if_neg (by decide), if_neg (by decide), if_neg (by decide), if_neg (by decide), if_neg (by decide),
      if_pos (by decide), h1, h2]
    rfl
  | .int i, _ => by
    intro f r hf hr
    obtain ⟨f, rfl⟩ : ∃ g, f = g + 1 := ⟨f - 1, by simp only [costV] at hf; omega⟩
    exact rd_int i f hr
  | .str s, _ => by
    intro f r hf hr
    obtain ⟨f, rfl⟩ : ∃ g, f = g + 1 := ⟨f - 1, by simp only [costV] at hf; omega⟩
    exact rd_str s f r
  | .tup l, h => by
    intro f r hf hr
    simp only [costV] at hf
    exact readsV_tup (readsL l h) r f hf
  | .lst l, h => by
    intro f r hf hr
    simp only [costV] at hf
    obtain ⟨f, rfl⟩ : ∃ g, f = g + 1 := ⟨f - 1, by omega⟩
    have hl := readsL l h
    rw [rd, PyObj.repr]
    have e : skipB (c%"[" ++ l.repr ++ c%"]" ++ r) = '[' :: (l.repr ++ ']' :: r) := by simp [skipB]
    rw [e]
    dsimp only
    rw [if_neg (by decide), if_pos rfl]
    by_cases hn : l = .nil
    · subst hn
      obtain ⟨f, rfl⟩ : ∃ g, f = g + 1 := ⟨f - 1, by simp only [costL] at hf; omega⟩
      simp [PyObjs.repr, rdSeq, skipB]
    · rw [(hl hn f ']' r (by omega) (.inr rfl)).1]
  | .dict .nil, _ => by
    intro f r hf hr
    obtain ⟨f, rfl⟩ : ∃ g, f = g + 2 := ⟨f - 2, by simp only [costV, costD] at hf; omega⟩
    simp [PyObj.repr, rd, skipB, rdDict]
  | .dict (.cons k v d), h => by
    intro f r hf hr
    simp only [costV, costD] at hf
    obtain ⟨f, rfl⟩ : ∃ g, f = g + 1 := ⟨f - 1, by omega⟩
    have hd := readsD d h.2.2 k v f r (readsV v h.2.1) (by omega)
    rw [rd, PyObj.repr]
    have e : skipB (c%"{" ++ reprStr k ++ c%": " ++ v.repr ++ d.reprTail ++ c%"}" ++ r) =
        '{' :: (reprStr k ++ c%": " ++ v.repr ++ d.reprTail ++ '}' :: r) := by simp [skipB]
    rw [e]
    dsimp only
    rw [if_neg (by decide), if_neg (by decide), if_pos rfl, hd]
  | .type items quals, h => by
    obtain ⟨h1, h2, h3, h4, h5⟩ := h
    exact readsV_type (readsA items h3) (readsL quals h4) h1 h2 h5
  | .comp u members pack, h => by
    obtain ⟨h1, h2, h3⟩ := h
    exact readsV_comp (readsA members h1) (readsV pack h2) h3
theorem readsL : ∀ l : PyObjs, PyOkL l → ReadsL l
  | .nil, _ => fun h => absurd rfl h
  | .cons v l, h => readsL_cons (readsV v h.1) (readsL l h.2)
theorem readsA : ∀ l : PyObjs, PyOkL l → ReadsA l
  | .nil, _ => fun h => absurd rfl h
  | .cons v l, h => readsA_cons (readsV v h.1) (readsA l h.2)
theorem readsD : ∀ d : PyDict, PyOkD d → ReadsD d
  | .nil, _ => readsD_nil
  | .cons _ v d, h => readsD_cons (readsV v h.2.1) (readsD d h.2.2)
end

/-- What `repr` writes reads as the object. -/
theorem pyRead_repr (v : PyObj) (h : PyOk v) : pyRead v.repr = some v := by
  have := readsV v h (3 * v.repr.length + 3) [] (by have := costV_le v; omega) (.inl rfl)
  rw [List.append_nil] at this
  unfold pyRead
  rw [this]
  rfl

end Pyclib
