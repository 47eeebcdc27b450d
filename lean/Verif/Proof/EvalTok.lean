import Verif.Proof.EvalRun
import Verif.Proof.Grammar
import Verif.Spec.Decl
/-
Proof that the modelled part of Python's `eval` computes the value that C gives to an expression of the
fragment: from text to tokens.
-/
namespace Pyclib

open Spec

theorem hex_small {c : Char} (h : isHexC c = true) : c.toNat < 103 := by
  simp only [isHexC, Bool.or_eq_true, Bool.and_eq_true, decide_eq_true_eq, Char.isDigit] at h
  rcases h with (h | h) | h
  · have : c.toNat ≤ 57 := h.2
    omega
  · have : c.toNat ≤ 102 := h.2
    omega
  · have : c.toNat ≤ 70 := h.2
    omega

theorem digit_eq {c : Char} (h : isHexC c = true) : kDigit c = digit c := by
  have key : ∀ n < 103, isHexC (Char.ofNat n) = true → kDigit (Char.ofNat n) = digit (Char.ofNat n) := by
    decide
  have := key c.toNat (hex_small h)
  rw [Char.ofNat_toNat] at this
  exact this h

theorem digit_hex {c : Char} (h : c.isDigit = true) : isHexC c = true := by simp [isHexC, h]

theorem posValue_append (b : Nat) : ∀ (ds : Str) (n : Nat), ds.all isHexC = true →
    ds.foldl (fun n c => n * b + kDigit c) n = posValue b (ds.reverse) + n * b ^ ds.length
  | [], n, _ => by simp [posValue]
  | d :: ds, n, h => by
    simp only [List.all_cons, Bool.and_eq_true] at h
    rw [List.foldl_cons, posValue_append b ds _ h.2, List.reverse_cons]
    have key : ∀ (l : Str), posValue b (l ++ [d]) = posValue b l + digit d * b ^ l.length := by
      intro l
      induction l with
      | nil => simp [posValue]
      | cons e l ih =>
        simp only [List.cons_append, posValue, ih, List.length_cons, Nat.pow_succ, Nat.mul_add]
        have : b * (digit d * b ^ l.length) = digit d * (b ^ l.length * b) := by
          rw [Nat.mul_comm (b ^ l.length) b, ← Nat.mul_assoc, ← Nat.mul_assoc, Nat.mul_comm b]
        omega
    rw [key, List.length_reverse, digit_eq h.1, List.length_cons, Nat.pow_succ, Nat.add_mul, Nat.mul_assoc,
      Nat.mul_comm b (b ^ ds.length)]
    omega

theorem kDigits_eq (b : Nat) (ds : Str) (h : ds.all isHexC = true) : kDigits b ds = posValue b ds.reverse := by
  unfold kDigits
  rw [posValue_append b ds 0 h]
  simp

/-- The tokens of Python that stand for a token of C (without suffix). -/
inductive KTokOf : Str → KTok → Prop
  | lit (v : Str) : litOk v → KTokOf v (.num (litValue v))
  | id (w : Str) : wordOk w = true → w.head?.any isIdentStart = true → KTokOf w (.id w)
  | un (o : KUn) : KTokOf o.text (kun o)
  | bin (o : KBin) : o ≠ .div → KTokOf o.text (.op (kop o))
  | lp : KTokOf c%"(" .lp
  | rp : KTokOf c%")" .rp

theorem litOk_word {v : Str} (h : litOk v) : v ≠ [] ∧ v.all isWordC = true := by
  rcases h with ⟨h0, h1, _⟩ | ⟨x, ds, rfl, hx, _, h1⟩
  · refine ⟨h0, ?_⟩
    rw [List.all_eq_true] at h1 ⊢
    intro c hc
    exact (isDigit_facts (h1 c hc)).2.2.2.2.2
  · refine ⟨by simp, ?_⟩
    rw [List.all_eq_true] at h1 ⊢
    intro c hc
    simp only [List.mem_cons] at hc
    rcases hc with rfl | rfl | hc
    · decide
    · rcases hx with rfl | rfl <;> decide
    · exact isHexC_word (h1 c hc)

theorem litValue_dec {v : Str} (h1 : v.all Char.isDigit = true) (h2 : v.head? = some '0' → v = c%"0") :
    litValue v = posValue 10 v.reverse := by
  unfold litValue
  split
  · exact absurd (h2 rfl) (by simp)
  · exact absurd (h2 rfl) (by simp)
  · have := h2 rfl
    simp only [List.cons.injEq, true_and] at this
    subst this
    rfl
  · rfl

theorem kTok_lit {v : Str} (h : litOk v) (n : Nat) (r : Str) (hr : numStop r = true) :
    kTok (n + 1) (v ++ r) = (kTok n r).map (.num (litValue v) :: ·) := by
  have hstop : ∀ c, r.head? = some c → isWordC c = false := by
    intro c hc
    simp only [numStop, hc, Option.any_some, Bool.not_eq_true', Bool.or_eq_false_iff] at hr
    exact hr.1
  rcases h with ⟨h0, h1, h2⟩ | ⟨x, ds, rfl, hx, h0, h1⟩
  · cases v with
    | nil => exact absurd rfl h0
    | cons c v =>
      have h1' := h1
      simp only [List.all_cons, Bool.and_eq_true] at h1
      obtain ⟨f1, f2, f3, f4, f5, f6⟩ := isDigit_facts h1.1
      have hb : ¬(c = ' ' ∨ c = '\t') := by
        rintro (e | e) <;> subst e <;> exact absurd h1.1 (by decide)
      have hd := takeWhile_append_stop Char.isDigit v r h1.2 (fun c hc => by
        cases hcd : c.isDigit with
        | false => rfl
        | true => have := hstop c hc; rw [(isDigit_facts hcd).2.2.2.2.2] at this; cases this)
      have hx : ¬(c = '0' ∧ ((v ++ r).head? = some 'x' ∨ (v ++ r).head? = some 'X')) := by
        rintro ⟨rfl, hx⟩
        have := h2 rfl
        simp only [List.cons.injEq, true_and] at this
        subst this
        simp only [List.nil_append] at hx
        rcases hx with hx | hx <;> exact absurd (hstop _ hx) (by decide)
      have hk : decKTok (c :: v) = .num (litValue (c :: v)) := by
        unfold decKTok
        rw [if_neg, litValue_dec h1' h2, kDigits_eq]
        · rw [List.all_eq_true] at h1' ⊢
          intro d hd
          exact digit_hex (h1' d hd)
        · rintro ⟨e1, e2⟩
          rw [h2 e1] at e2
          revert e2
          decide
      simp only [List.cons_append, kTok, if_neg hb, h1.1, if_true, if_neg hx, hd.1, hd.2, hr, hk]
  · have hd := takeWhile_append_stop isHexC ds r h1 (fun c hc => by
      cases hcd : isHexC c with
      | false => rfl
      | true => have := hstop c hc; rw [isHexC_word hcd] at this; cases this)
    have hx' : (x :: (ds ++ r)).head? = some 'x' ∨ (x :: (ds ++ r)).head? = some 'X' := by simpa using hx
    have hv : litValue ('0' :: x :: ds) = kDigits 16 ds := by
      rw [kDigits_eq 16 ds h1]
      rcases hx with rfl | rfl <;> rfl
    simp only [List.cons_append, kTok, if_neg (show ¬('0' = ' ' ∨ '0' = '\t') by decide),
      show Char.isDigit '0' = true by decide, if_true, true_and, if_pos hx', List.drop_succ_cons, List.drop_zero,
      hd.1, hd.2, hr, hv]
    rw [if_pos ⟨h0, trivial⟩]

theorem kTok_id {w : Str} (h : wordOk w = true) (hs : w.head?.any isIdentStart = true) (n : Nat) (r : Str)
    (hr : ∀ c, r.head? = some c → isWordC c = false) :
    kTok (n + 1) (w ++ r) = (kTok n r).map (.id w :: ·) := by
  cases w with
  | nil => simp at hs
  | cons c w =>
    simp only [List.head?_cons, Option.any_some] at hs
    simp only [wordOk, List.all_cons, Bool.and_eq_true] at h
    have hd := takeWhile_append_stop isWordC w r h.2.2 hr
    have hb : ¬(c = ' ' ∨ c = '\t') := by
      rintro (e | e) <;> subst e <;> exact absurd hs (by decide)
    have hdig : c.isDigit = false := by
      cases hcd : c.isDigit with
      | false => rfl
      | true =>
        have h2 : 48 ≤ c.toNat ∧ c.toNat ≤ 57 := by
          simp only [Char.isDigit, Bool.and_eq_true, decide_eq_true_eq, UInt32.le_iff_toNat_le] at hcd
          exact hcd
        have key : ∀ n < 58, 48 ≤ n → isIdentStart (Char.ofNat n) = false := by decide
        have := key c.toNat (by omega) h2.1
        rw [Char.ofNat_toNat] at this
        rw [this] at hs
        cases hs
    simp only [List.cons_append, kTok, if_neg hb, hdig, Bool.false_eq_true, if_false, hs, if_true, hd.1, hd.2]

/-- A token of C at the start of the text is read as the token of Python. -/
theorem kTok_step {w : Str} {t : KTok} (h : KTokOf w t) (n : Nat) (r : Str)
    (hr : ∀ c, r.head? = some c → apart (w.getLastD ' ') c = true)
    (hm : t = .op .mul → r.head? ≠ some '*') : kTok (n + 1) (w ++ r) = (kTok n r).map (t :: ·) := by
  have hword : w ≠ [] → w.all isWordC = true → ∀ c, r.head? = some c → isWordC c = false ∧ c ≠ '.' := by
    intro hne hw c hc
    have hlast : isIdC (w.getLastD ' ') = true := isIdC_of_word (List.all_eq_true.1 hw _ (getLastD_mem' _ _ hne))
    have := hr c hc
    simp only [apart, hlast, Bool.true_and, Bool.and_eq_true, Bool.not_eq_true', Bool.or_eq_false_iff,
      decide_eq_false_iff_not] at this
    exact ⟨not_word_of_isIdC_false this.1.1, this.1.2⟩
  cases h with
  | lit v hv =>
    obtain ⟨hne, hw⟩ := litOk_word hv
    refine kTok_lit hv n r ?_
    unfold numStop
    cases hc : r.head? with
    | none => rfl
    | some c => simp [hword hne hw c hc]
  | id w hw hs =>
    have hw' := hw
    simp only [wordOk, Bool.and_eq_true, Bool.not_eq_true', List.isEmpty_eq_false_iff] at hw'
    exact kTok_id hw hs n r (fun c hc => (hword hw'.1 hw'.2 c hc).1)
  | un o => cases o <;> rfl
  | bin o ho =>
    cases o <;> first | rfl | (exact absurd ho (by decide)) | skip
    · have : r.head? ≠ some '*' := hm rfl
      simp only [KBin.text, List.cons_append, List.nil_append, kTok]
      simp [this]
      rfl
    · have h1 : r.head? ≠ some '<' := fun e => absurd (hr _ e) (by decide)
      have h2 : r.head? ≠ some '=' := fun e => absurd (hr _ e) (by decide)
      simp only [KBin.text, List.cons_append, List.nil_append, kTok]
      simp [h1, h2]
      rfl
    · have h1 : r.head? ≠ some '>' := fun e => absurd (hr _ e) (by decide)
      have h2 : r.head? ≠ some '=' := fun e => absurd (hr _ e) (by decide)
      simp only [KBin.text, List.cons_append, List.nil_append, kTok]
      simp [h1, h2]
      rfl
  | lp => rfl
  | rp => rfl

theorem kTok_blank {ws : Str} (hw : ∀ c ∈ ws, c = ' ' ∨ c = '\t') (r : Str) :
    ∀ n, kTok (n + ws.length) (ws ++ r) = kTok n r := by
  induction ws with
  | nil => intro n; rfl
  | cons c ws ih =>
    intro n
    have h1 := hw c (by simp)
    simp only [List.length_cons, List.cons_append]
    rw [← Nat.add_assoc]
    simp only [kTok, if_pos h1]
    exact ih (fun d hd => hw d (by simp [hd])) n

/-- No `*` directly after a `*`. -/
def noPow : List Str → Bool
  | a :: b :: k => !(decide (a = c%"*") && decide (b = c%"*")) && noPow (b :: k)
  | _ => true

theorem KTokOf.star {w : Str} {t : KTok} (h : KTokOf w t) (hs : w.head? = some '*') : w = c%"*" := by
  cases h with
  | lit v hv =>
    obtain ⟨hne, hw⟩ := litOk_word hv
    cases w with
    | nil => simp at hs
    | cons c w =>
      simp only [List.head?_cons, Option.some.injEq] at hs
      subst hs
      simp only [List.all_cons, Bool.and_eq_true] at hw
      exact absurd hw.1 (by decide)
  | id w hw h1 => rw [hs] at h1; exact absurd h1 (by decide)
  | un o => cases o <;> simp [KUn.text] at hs
  | bin o ho => cases o <;> simp_all [KBin.text]
  | lp => simp at hs
  | rp => simp at hs

/-- The text of an expression is read as the tokens of Python. -/
theorem kTok_lay {doc : Doc} (hd : doc.tail = []) {p : Char} {s : Str} {tks : List Tk} (h : Lay doc p s tks) :
    ∀ (kts : List KTok), All2 KTokOf (tks.map Tk.w) kts → noPow (tks.map Tk.w) = true →
      (∀ c ∈ s, c ≠ '\n' ∧ c ≠ '\r') → ∀ n, s.length + 1 ≤ n → kTok n s = some kts := by
  induction h with
  | nil p =>
    intro kts hk _ _ n hn
    cases hk
    rw [hd] at hn ⊢
    obtain ⟨n, rfl⟩ : ∃ k, n = k + 1 := ⟨n - 1, by omega⟩
    rfl
  | cons p ws c w text ts _ hw hc hp _ hl ih =>
    intro kts hk hn hs n hlen
    cases hk with
    | cons _ t _ us h1 h2 =>
      have hws : ∀ c ∈ ws, c = ' ' ∨ c = '\t' := by
        intro d hd
        have h3 := hs d (by simp [hd])
        rcases isWhite_cases (List.all_eq_true.1 hw d hd) with h4 | h4 | h4 | h4
        · exact .inl h4
        · exact absurd h4 h3.1
        · exact .inr h4
        · exact absurd h4 h3.2
      simp only [List.length_append, List.length_cons] at hlen
      obtain ⟨m, rfl⟩ : ∃ m, n = m + 1 + ws.length := ⟨n - 1 - ws.length, by omega⟩
      rw [List.append_assoc, kTok_blank hws]
      have hn' : noPow (ts.map Tk.w) = true := by
        cases ts with
        | nil => rfl
        | cons t' ts =>
          simp only [List.map_cons, noPow, Bool.and_eq_true] at hn ⊢
          exact hn.2
      have hrec := ih us h2 hn' (fun c hc => hs c (by simp [hc])) m (by omega)
      rw [kTok_step h1 m text ?_ ?_, hrec]
      · rfl
      · intro d hd'
        cases hl with
        | nil => rw [hd] at hd'; simp at hd'
        | cons p' ws' c' w' text' ts' _ hw' hc' hp' _ hl' =>
          cases ws' with
          | nil =>
            simp only [List.nil_append, List.cons_append, List.head?_cons, Option.some.injEq] at hd'
            subst hd'
            exact hp'.resolve_left (by simp)
          | cons b ws' =>
            simp only [List.cons_append, List.head?_cons, Option.some.injEq] at hd'
            subst hd'
            simp only [List.all_cons, Bool.and_eq_true] at hw'
            exact apart_white _ hw'.1
      · rintro rfl hstar
        have hw1 : (c :: w) = c%"*" := by
          generalize hcw : c :: w = cw at h1
          generalize ht : KTok.op KOp.mul = t at h1
          cases h1 with
          | bin o ho => cases o <;> simp_all [KBin.text, kop]
          | un o => cases o <;> simp [kun] at ht
          | _ => cases ht
        cases hl with
        | nil => rw [hd] at hstar; simp at hstar
        | cons p' ws' c' w' text' ts' _ hw' hc' hp' _ hl' =>
          cases ws' with
          | nil =>
            simp only [List.nil_append, List.cons_append, List.head?_cons, Option.some.injEq] at hstar
            cases h2 with
            | cons _ t2 _ _ h3 h4 =>
              have := h3.star (by simp [hstar])
              rw [List.map_cons, List.map_cons] at hn
              simp [noPow, hw1] at hn
              simp only [List.cons.injEq] at this
              exact hn.1.elim (fun h => h this.1) (fun h => h this.2)
          | cons b ws' =>
            simp only [List.cons_append, List.head?_cons, Option.some.injEq] at hstar
            subst hstar
            simp only [List.all_cons, Bool.and_eq_true] at hw'
            exact absurd hw'.1 (by decide)

/-- The tokens of an expression without the suffixes of numbers. -/
def otoks : KE → List Str
  | .lit v _ => [v]
  | .id w => [w]
  | .par e => c%"(" :: (otoks e ++ [c%")"])
  | .un o e => o.text :: otoks e
  | .bin o a b => otoks a ++ o.text :: otoks b

theorem Spec.All2.append {α β : Type} {R : α → β → Prop} {as : List α} {bs : List β} (h : All2 R as bs)
    {cs : List α} {ds : List β} (h' : All2 R cs ds) : All2 R (as ++ cs) (bs ++ ds) := by
  induction h with
  | nil => exact h'
  | cons a b as bs h hs ih => exact .cons a b _ _ h ih

theorem identOk_word {g : Gram} {w : Str} (h : identOk g w = true) :
    wordOk w = true ∧ w.head?.any isIdentStart = true := by
  simp only [identOk, Bool.and_eq_true] at h
  exact ⟨h.1.1.1.1.1, h.1.1.1.1.2⟩

theorem otoks_ktoks (g : Gram) (env : Str → Option Int) : ∀ e : KE, e.Ok g → e.Frag env →
    All2 KTokOf (otoks e) (ktoks e)
  | .lit v s, h, _ => .cons _ _ _ _ (.lit v h.1) .nil
  | .id w, h, _ => .cons _ _ _ _ (.id w (identOk_word h.1).1 (identOk_word h.1).2) .nil
  | .par e, h, hf => .cons _ _ _ _ .lp ((otoks_ktoks g env e h.1 hf).append (.cons _ _ _ _ .rp .nil))
  | .un o e, h, hf => .cons _ _ _ _ (.un o) (otoks_ktoks g env e h hf)
  | .bin o a b, h, hf =>
    (otoks_ktoks g env a h.1 hf.2.1).append (.cons _ _ _ _ (.bin o hf.1) (otoks_ktoks g env b h.2 hf.2.2.1))

theorem otoks_start (g : Gram) : ∀ e : KE, e.Ok g → ∃ t ts, otoks e = t :: ts ∧ t ≠ c%"*"
  | .lit v s, h => ⟨_, _, rfl, by
      rintro rfl
      exact absurd (litOk_word h.1).2 (by decide)⟩
  | .id w, h => ⟨_, _, rfl, by
      rintro rfl
      exact absurd (identOk_word h.1).2 (by decide)⟩
  | .par e, _ => ⟨_, _, rfl, by decide⟩
  | .un o e, _ => ⟨_, _, rfl, by cases o <;> decide⟩
  | .bin o a b, h => by
    obtain ⟨t, ts, e, ht⟩ := otoks_start g a h.1
    exact ⟨t, ts ++ o.text :: otoks b, by simp [otoks, e], ht⟩

theorem noPow_cons {a : Str} {k : List Str} (h : noPow k = true) (hk : k.head? ≠ some c%"*") :
    noPow (a :: k) = true := by
  cases k with
  | nil => rfl
  | cons b k =>
    simp only [List.head?_cons, Option.some.injEq, ne_eq] at hk
    simp [noPow, hk, h]

theorem noPow_otoks (g : Gram) : ∀ (e : KE), e.Ok g → ∀ r, noPow r = true →
    noPow (otoks e ++ r) = true
  | .lit v s, h, r, hr => by
    have hv : v ≠ c%"*" := by
      rintro rfl
      exact absurd (litOk_word h.1).2 (by decide)
    cases r with
    | nil => rfl
    | cons b r => simp [otoks, noPow, hv, hr]
  | .id w, h, r, hr => by
    have hv : w ≠ c%"*" := by
      rintro rfl
      exact absurd (identOk_word h.1).2 (by decide)
    cases r with
    | nil => rfl
    | cons b r => simp [otoks, noPow, hv, hr]
  | .par e, h, r, hr => by
    have h1 : noPow (c%")" :: r) = true := by
      cases r with
      | nil => rfl
      | cons b r => simp [noPow, hr]
    have h2 := noPow_otoks g e h.1 _ h1
    obtain ⟨t, ts, e1, ht⟩ := otoks_start g e h.1
    simp only [otoks, List.cons_append, List.append_assoc, List.nil_append]
    exact noPow_cons h2 (by rw [e1]; simpa using ht)
  | .un o e, h, r, hr => by
    have h2 := noPow_otoks g e h _ hr
    obtain ⟨t, ts, e1, ht⟩ := otoks_start g e h
    simp only [otoks, List.cons_append]
    exact noPow_cons h2 (by rw [e1]; simpa using ht)
  | .bin o a b, h, r, hr => by
    have h2 := noPow_otoks g b h.2 _ hr
    obtain ⟨t, ts, e1, ht⟩ := otoks_start g b h.2
    simp only [otoks, List.append_assoc, List.cons_append]
    refine noPow_otoks g a h.1 _ (noPow_cons h2 ?_)
    rw [e1]
    simpa using ht

/-- The tokens of an expression are within the modelled part of Python. -/
theorem kPlain_ktoks (g : Gram) (tbl : Dict Str DefVal) (env : Str → Option Int)
    (henv : ∀ w v, env w = some v → (nameVal tbl w).isSome = true) :
    ∀ (e : KE) (v : Int), e.Ok g → e.value env = some v → ∀ r, (∀ t, r.head? = some t → t = .rp ∨ ∃ o, t = .op o) →
      kPlain tbl r = true → kPlain tbl (ktoks e ++ r) = true ∧
        ∃ t ts, ktoks e = t :: ts ∧ t ≠ .rp
  | .lit v s, _, _, _, r, hr, hp => by
    refine ⟨?_, _, _, rfl, by simp⟩
    cases r with
    | nil => rfl
    | cons t r => rcases hr t rfl with rfl | ⟨o, rfl⟩ <;> simpa [ktoks, kPlain] using hp
  | .id w, v, h, hv, r, hr, hp => by
    refine ⟨?_, _, _, rfl, by simp⟩
    have h1 := henv w v hv
    cases r with
    | nil => simp [ktoks, kPlain, h1, h.2.2]
    | cons t r => rcases hr t rfl with rfl | ⟨o, rfl⟩ <;> simpa [ktoks, kPlain, h1, h.2.2] using hp
  | .par e, v, h, hv, r, hr, hp => by
    refine ⟨?_, _, _, rfl, by simp⟩
    have h0 : kPlain tbl (.rp :: r) = true := by
      cases r with
      | nil => rfl
      | cons t r => rcases hr t rfl with rfl | ⟨o, rfl⟩ <;> simpa [kPlain] using hp
    obtain ⟨h1, t, ts, h2, h3⟩ := kPlain_ktoks g tbl env henv e v h.1 hv (.rp :: r) (by simp) h0
    rw [h2] at h1
    simp only [ktoks, List.cons_append, List.append_assoc, List.nil_append, h2]
    rw [List.cons_append] at h1
    generalize ts ++ .rp :: r = us at h1 ⊢
    rw [← h1]
    cases t <;> first | (exact absurd rfl h3) | rfl
  | .un o e, v, h, hv, r, hr, hp => by
    simp only [KE.value, Option.map_eq_some_iff] at hv
    obtain ⟨a, hv, _⟩ := hv
    obtain ⟨h1, _⟩ := kPlain_ktoks g tbl env henv e a h hv r hr hp
    refine ⟨?_, _, _, rfl, by cases o <;> simp [kun]⟩
    simp only [ktoks, List.cons_append]
    cases o <;> simpa [kun, kPlain] using h1
  | .bin o a b, v, h, hv, r, hr, hp => by
    simp only [KE.value, Option.bind_eq_some_iff] at hv
    obtain ⟨x, hx, y, hy, _⟩ := hv
    obtain ⟨h1, _⟩ := kPlain_ktoks g tbl env henv b y h.2 hy r hr hp
    have h0 : kPlain tbl (.op (kop o) :: (ktoks b ++ r)) = true := by simpa [kPlain] using h1
    obtain ⟨h2, t, ts, h3, h4⟩ := kPlain_ktoks g tbl env henv a x h.1 hx (.op (kop o) :: (ktoks b ++ r)) (by simp) h0
    refine ⟨by simpa [ktoks] using h2, t, ts ++ .op (kop o) :: ktoks b, by simp [ktoks, h3], h4⟩

/-- The tokens of an expression whose names are integers are integers. -/
theorem isInt_ktoks (tbl : Dict Str DefVal) (env : Str → Option Int)
    (henv : ∀ w v, env w = some v → (nameVal tbl w).bind id = some v) :
    ∀ (e : KE) (v : Int), e.value env = some v → (ktoks e).all (KTok.isInt tbl) = true
  | .lit v s, _, _ => rfl
  | .id w, v, hv => by
    have := henv w v hv
    simp only [ktoks, List.all_cons, List.all_nil, Bool.and_true, KTok.isInt, this]
    rfl
  | .par e, v, hv => by simpa [ktoks, KTok.isInt] using isInt_ktoks tbl env henv e v hv
  | .un o e, v, hv => by
    simp only [KE.value, Option.map_eq_some_iff] at hv
    obtain ⟨a, hv, _⟩ := hv
    have := isInt_ktoks tbl env henv e a hv
    cases o <;> simpa [ktoks, kun, KTok.isInt] using this
  | .bin o a b, v, hv => by
    simp only [KE.value, Option.bind_eq_some_iff] at hv
    obtain ⟨x, hx, y, hy, _⟩ := hv
    have h1 := isInt_ktoks tbl env henv a x hx
    have h2 := isInt_ktoks tbl env henv b y hy
    simp only [ktoks, List.all_append, List.all_cons, h1, h2]
    rfl

theorem isCmp_level {e : KE} (h : 5 ≤ e.level) : e.isCmp = false := by
  cases e with
  | bin o a b =>
    simp only [KE.level] at h
    cases o <;> simp [KBin.level, KE.isCmp] at h ⊢
  | _ => rfl

/-- An expression of the fragment has no chain of comparisons. -/
theorem noChain_ktoks (env : Str → Option Int) :
    ∀ (e : KE), e.Grammar → e.Frag env → ∀ (b : Bool) (st : List Bool) (r : List KTok),
      (e.isCmp = true → b = false) →
      noChain (b :: st) (ktoks e ++ r) = noChain ((b || e.isCmp) :: st) r
  | .lit v s, _, _, b, st, r, _ => by simp [ktoks, noChain, KE.isCmp]
  | .id w, _, _, b, st, r, _ => by simp [ktoks, noChain, KE.isCmp]
  | .par e, hg, hf, b, st, r, _ => by
    simp only [ktoks, List.cons_append, List.append_assoc, List.nil_append, noChain]
    rw [noChain_ktoks env e hg hf false (b :: st) _ (fun _ => rfl)]
    simp [noChain, KE.isCmp]
  | .un o e, hg, hf, b, st, r, _ => by
    have hl : 5 ≤ e.level := by have := hg.1; omega
    have h1 := noChain_ktoks env e hg.2 hf b st r (by rw [isCmp_level hl]; simp)
    rw [isCmp_level hl] at h1
    have e1 : (KE.un o e).isCmp = false := rfl
    rw [e1, ← h1]
    cases o <;> simp [ktoks, kun, noChain, KOp.level]
  | .bin o x y, hg, hf, b, st, r, hb => by
    obtain ⟨hd, hfx, hfy, _, hc⟩ := hf
    obtain ⟨gx, gy, ggx, ggy⟩ := hg
    have hx : x.isCmp = false := by
      by_cases h5 : 5 ≤ o.level
      · exact isCmp_level (by omega)
      · exact (hc (by revert h5; cases o <;> decide)).1
    have hy : y.isCmp = false := by
      by_cases h5 : 5 ≤ o.level
      · exact isCmp_level (by omega)
      · exact (hc (by revert h5; cases o <;> decide)).2
    simp only [ktoks, List.append_assoc, List.cons_append]
    rw [noChain_ktoks env x ggx hfx b st _ (by rw [hx]; simp), hx, Bool.or_false]
    by_cases ho : (KE.bin o x y).isCmp = true
    · have hb' := hb ho
      subst hb'
      have h0 : (kop o).level = 0 := by
        revert ho
        simp only [KE.isCmp]
        cases o <;> decide
      simp only [noChain, h0, if_true, Bool.not_false, Bool.true_and, ho, Bool.false_or]
      rw [noChain_ktoks env y ggy hfy true st r (by rw [hy]; simp), hy]
      rfl
    · have h0 : (kop o).level ≠ 0 := by
        revert ho hd
        simp only [KE.isCmp]
        cases o <;> decide
      have e1 : (KE.bin o x y).isCmp = false := by simpa using ho
      simp only [noChain, h0, if_false, e1, Bool.or_false]
      rw [noChain_ktoks env y ggy hfy b st r (by rw [hy]; simp), hy, Bool.or_false]

/-- The comparisons of an expression of the fragment are modelled. -/
theorem kCmp_ktoks (tbl : Dict Str DefVal) (env : Str → Option Int)
    (henv : ∀ w v, env w = some v → (nameVal tbl w).bind id = some v) (e : KE) (v : Int) (hg : e.Grammar)
    (hf : e.Frag env) (hv : e.value env = some v) : kCmp tbl (ktoks e) = true := by
  have h1 := isInt_ktoks tbl env henv e v hv
  have h2 := noChain_ktoks env e hg hf false [] [] (fun _ => rfl)
  rw [List.append_nil] at h2
  unfold kCmp
  rw [h1, h2]
  simp [noChain]

end Pyclib
