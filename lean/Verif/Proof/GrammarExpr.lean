import Verif.Proof.Grammar
/-
Proof that the parser reads every text laid out from the tokens of an expression as that expression.
-/
namespace Pyclib

open Spec

/-! ### Joining tokens -/

theorem joinC_cons (c : Char) (a : Str) {l : List Str} (h : l ≠ []) : joinC c (a :: l) = a ++ c :: joinC c l := by
  cases l with
  | nil => exact absurd rfl h
  | cons b l => rfl

theorem joinC_append (c : Char) : ∀ {a b : List Str}, a ≠ [] → b ≠ [] →
    joinC c (a ++ b) = joinC c a ++ c :: joinC c b
  | [], _, h, _ => absurd rfl h
  | [w], b, _, h => by simp [joinC_cons c w h, joinC]
  | w :: v :: a, b, _, h => by
    have ih := joinC_append c (a := v :: a) (by simp) h
    rw [List.cons_append, joinC_cons c w (by simp), ih, joinC_cons c w (by simp)]
    simp

/-- Token lists that are joined to the same text in every context. -/
def JEq (a b : List Str) : Prop := a ≠ [] ∧ b ≠ [] ∧ joinC ' ' a = joinC ' ' b

theorem JEq.refl {a : List Str} (h : a ≠ []) : JEq a a := ⟨h, h, rfl⟩

theorem JEq.append {a b c d : List Str} (h : JEq a b) (h' : JEq c d) : JEq (a ++ c) (b ++ d) := by
  obtain ⟨h1, h2, h3⟩ := h
  obtain ⟨h4, h5, h6⟩ := h'
  refine ⟨by simp [h1], by simp [h2], ?_⟩
  rw [joinC_append _ h1 h4, joinC_append _ h2 h5, h3, h6]

theorem JEq.join {a : List Str} (h : a ≠ []) : JEq [joinC ' ' a] a := ⟨by simp, h, by simp [joinC]⟩

theorem JEq.prepend (c : List Str) {a b : List Str} (h : JEq a b) : JEq (c ++ a) (c ++ b) := by
  cases c with
  | nil => exact h
  | cons w c => exact JEq.append (JEq.refl (by simp)) h

/-! ### Operators -/

theorem find_biOps (o r : Str) (ho : o ∈ binOps)
    (hr : ∀ c, r.head? = some c → apart (o.getLastD ' ') c = true) : biOps.find? (startsWith (o ++ r)) = some o := by
  have key : ∀ c, r.head? = some c → [o.getLastD ' ', c] ∉ pairOps := by
    intro c hc
    have := hr c hc
    simp only [apart, Bool.and_eq_true, Bool.not_eq_true', decide_eq_false_iff_not] at this
    exact this.2
  clear hr
  simp only [binOps, List.mem_cons, List.not_mem_nil, or_false] at ho
  cases r with
  | nil =>
    rcases ho with h | h | h | h | h | h | h | h | h | h | h | h | h | h | h | h | h | h <;> subst h <;> decide
  | cons c r =>
    have key := key c rfl
    rcases ho with h | h | h | h | h | h | h | h | h | h | h | h | h | h | h | h | h | h <;> subst h <;>
      simp [pairOps] at key <;> simp [biOps, startsWith, key]

theorem oneOfP_bi {doc : Doc} {x : Pos} {t : Tk} {k : List Tk} (h : At doc x (t :: k)) (hk : k ≠ [])
    (ho : t.w ∈ binOps) : oneOfP biOps x = some (t.w, adv x t) := by
  unfold oneOfP
  rw [h.start.rest, find_biOps t.w _ ho (h.start.after hk)]
  simp only [Option.map_some, List.drop_left]
  rfl

theorem find_leftOps (o r : Str) (ho : o ∈ signOps)
    (hr : ∀ c, r.head? = some c → apart (o.getLastD ' ') c = true) : leftOps.find? (startsWith (o ++ r)) = some o := by
  have key : ∀ c, r.head? = some c → [o.getLastD ' ', c] ∉ pairOps := by
    intro c hc
    have := hr c hc
    simp only [apart, Bool.and_eq_true, Bool.not_eq_true', decide_eq_false_iff_not] at this
    exact this.2
  clear hr
  simp only [signOps, List.mem_cons, List.not_mem_nil, or_false] at ho
  cases r with
  | nil => rcases ho with h | h <;> subst h <;> decide
  | cons c r =>
    have key := key c rfl
    rcases ho with h | h <;> subst h <;> simp [pairOps] at key <;> simp [leftOps, startsWith, key]

theorem oneOfP_left {doc : Doc} {x : Pos} {t : Tk} {k : List Tk} (h : At doc x (t :: k)) (hk : k ≠ [])
    (ho : t.w ∈ signOps) : oneOfP leftOps x = some (t.w, adv x t) := by
  unfold oneOfP
  rw [h.start.rest, find_leftOps t.w _ ho (h.start.after hk)]
  simp only [Option.map_some, List.drop_left]
  rfl

theorem startsWith_head {c : Char} {s : Str} {o : Str} (ho : o ≠ []) (h : o.head? ≠ some c) :
    startsWith (c :: s) o = false := by
  cases o with
  | nil => exact absurd rfl ho
  | cons d o =>
    simp only [List.head?_cons, ne_eq, Option.some.injEq] at h
    have : c ≠ d := fun e => h e.symm
    simp [startsWith, this]

theorem oneOfP_no {doc : Doc} {x : Pos} {t : Tk} {k : List Tk} (h : At doc x (t :: k)) (ops : List Str)
    (ho : ∀ o ∈ ops, o ≠ [] ∧ o.head? ≠ some t.hd) : oneOfP ops x = none := by
  unfold oneOfP
  obtain ⟨w, e⟩ := h.start.cons
  have : ops.find? (startsWith x.skip.rest) = none := by
    rw [List.find?_eq_none]
    intro o hm
    rw [h.start.rest, e, List.cons_append, startsWith_head (ho o hm).1 (ho o hm).2]
    simp
  rw [this]
  rfl

/-- The tokens at which an expression ends. -/
def endChars : List Char := [')', ']', ',', ';', '}']

/-- An expression may end in front of these tokens. -/
def AfterExpr : List Tk → Prop
  | [] => False
  | t :: _ => t.hd ∈ endChars

/-- An operand may end in front of these tokens. -/
def AfterAtom : List Tk → Prop
  | [] => False
  | t :: k => t.hd ∈ endChars ∨ (t.w ∈ binOps ∧ k ≠ [])

theorem AfterExpr.atom {k : List Tk} (h : AfterExpr k) : AfterAtom k := by
  cases k with
  | nil => exact h
  | cons t k => exact .inl h

theorem AfterAtom.ne {k : List Tk} (h : AfterAtom k) : k ≠ [] := by
  cases k with
  | nil => exact absurd h (by simp [AfterAtom])
  | cons => simp

theorem AfterExpr.ne {k : List Tk} (h : AfterExpr k) : k ≠ [] := h.atom.ne

theorem hd_mem {t : Tk} {l : List Str} (h : t.w ∈ l) : t.hd ∈ l.map (fun o => o.headD ' ') :=
  List.mem_map.2 ⟨_, h, rfl⟩

theorem afterAtom_hd {t : Tk} {k : List Tk} (h : AfterAtom (t :: k)) :
    t.hd ∈ endChars ++ binOps.map (fun o => o.headD ' ') := by
  rcases h with h | h
  · exact List.mem_append_left _ h
  · exact List.mem_append_right _ (hd_mem h.1)

theorem rightOps_no {doc : Doc} {x : Pos} {k : List Tk} (h : At doc x k) (ha : AfterAtom k) :
    oneOfP rightOps x = none := by
  cases k with
  | nil => exact absurd ha (by simp [AfterAtom])
  | cons t k =>
    rcases ha with ha | ⟨ha, hk⟩
    · apply oneOfP_no h
      generalize t.hd = c at ha
      revert c
      decide
    · unfold oneOfP
      have key : ∀ c, (adv x t).rest.head? = some c → [t.w.getLastD ' ', c] ∉ pairOps := by
        intro c hc
        have := h.start.after hk c hc
        simp only [apart, Bool.and_eq_true, Bool.not_eq_true', decide_eq_false_iff_not] at this
        exact this.2
      have : rightOps.find? (startsWith x.skip.rest) = none := by
        rw [h.start.rest]
        generalize (adv x t).rest = r at key
        generalize t.w = o at ha key
        simp only [binOps, List.mem_cons, List.not_mem_nil, or_false] at ha
        cases r with
        | nil =>
          rcases ha with h | h | h | h | h | h | h | h | h | h | h | h | h | h | h | h | h | h <;> subst h <;> decide
        | cons c r =>
          have key := key c rfl
          rcases ha with h | h | h | h | h | h | h | h | h | h | h | h | h | h | h | h | h | h <;> subst h <;>
            simp [pairOps] at key <;> simp [rightOps, startsWith, key]
      rw [this]
      rfl

theorem opsLoop_no {ops : List Str} {x : Pos} (h : oneOfP ops x = none) (n : Nat) : opsLoop ops n x = ([], x) := by
  cases n with
  | zero => rfl
  | succ n => simp only [opsLoop, h]

theorem opsLoop_signs {doc : Doc} : ∀ (os : List Tk) (x : Pos) (k : List Tk) (n : Nat),
    At doc x (os ++ k) → k ≠ [] → (∀ o ∈ os, o.w ∈ signOps) → oneOfP leftOps (advs x os) = none →
    os.length ≤ n → opsLoop leftOps n x = (os.map Tk.w, advs x os)
  | [], x, k, n, _, _, _, hl, _ => opsLoop_no hl n
  | o :: os, x, k, n, h, hk, ho, hl, hn => by
    obtain ⟨n, rfl⟩ : ∃ m, n = m + 1 := ⟨n - 1, by simp at hn; omega⟩
    have ih := opsLoop_signs os (adv x o) k n (At.tail h) hk (fun v hv => ho v (by simp [hv])) hl (by simpa using hn)
    simp only [opsLoop, oneOfP_left h (by simp [hk]) (ho o (by simp)), ih]
    rfl

/-! ### Operands -/

/-- The parser `rec` reads expressions of at most `m` tokens. -/
def ExprReads (g : Gram) (doc : Doc) (rec : PP Str) (m : Nat) : Prop :=
  ∀ (tks k : List Tk) (out : List Str) (x : Pos), CExpr g (tks.map Tk.w) out → tks.length ≤ m →
    At doc x (tks ++ k) → AfterExpr k → rec x = some (joinC ' ' out, advs x tks)

theorem base_ne {g : Gram} {ts out : List Str} (h : CBase g ts out) : ts ≠ [] ∧ out ≠ [] := by
  cases h <;> simp

theorem atom_base {g : Gram} : ∀ {ts out : List Str}, CAtom g ts out →
    ∃ os cs c co, ts = os ++ (cs ++ c) ∧ out = os ++ co ∧ (∀ o ∈ os, o ∈ signOps) ∧ CBase g c co ∧
      ((cs = [] ∧ ∀ n, c = [c%"(", n, c%")"] → identOk g n = false) ∨ ∃ n, cs = [c%"(", n, c%")"] ∧ identOk g n = true)
  | _, _, .base ts out h h' => ⟨[], [], ts, out, rfl, rfl, by simp, h, .inl ⟨rfl, h'⟩⟩
  | _, _, .cast n ts out h h' => ⟨[], _, ts, out, rfl, rfl, by simp, h', .inr ⟨n, rfl, h⟩⟩
  | _, _, .sign o ts out ho h => by
    obtain ⟨os, cs, c, co, h1, h2, h3, h4⟩ := atom_base h
    refine ⟨o :: os, cs, c, co, by simp [h1], by simp [h2], ?_, h4⟩
    intro p hp
    rcases List.mem_cons.1 hp with hp | hp
    · exact hp ▸ ho
    · exact h3 p hp

theorem atom_num {g : Gram} {w v : Str} (h : intTok w v) : CAtom g [w] [v] := .base _ _ (.num w v h) (by intro n hn; cases hn)

theorem atom_ident {g : Gram} {n : Str} (h1 : identOk g n = true) (h2 : startsWith n c%"sizeof" = false)
    (h3 : startsWith n c%"new" = false) : CAtom g [n] [n] := .base _ _ (.ident n h1 h2 h3) (by intro n hn; cases hn)

theorem atom_ne {g : Gram} {ts out : List Str} (h : CAtom g ts out) : ts ≠ [] ∧ out ≠ [] := by
  cases h with
  | base _ _ h _ => exact base_ne h
  | cast n ts _ _ h => exact ⟨by simp, (base_ne h).2⟩
  | sign => simp

theorem expr_ne {g : Gram} {ts out : List Str} (h : CExpr g ts out) : ts ≠ [] ∧ out ≠ [] := by
  cases h with
  | atom _ _ h => exact atom_ne h
  | bin ts out o ts' out' h _ _ => simp

theorem mapw_one {tks : List Tk} {n : Str} (h : tks.map Tk.w = [n]) : ∃ t, tks = [t] ∧ t.w = n := by
  cases tks with
  | nil => simp at h
  | cons t ts =>
    cases ts with
    | nil => exact ⟨t, rfl, by simpa using h⟩
    | cons => simp at h

theorem mapw_paren {tks : List Tk} {ts : List Str} (h : tks.map Tk.w = c%"(" :: ts ++ [c%")"]) :
    ∃ l e r, tks = l :: (e ++ [r]) ∧ l.w = c%"(" ∧ e.map Tk.w = ts ∧ r.w = c%")" := by
  cases tks with
  | nil => simp at h
  | cons l tks =>
    simp only [List.map_cons, List.cons_append, List.cons.injEq] at h
    obtain ⟨h1, h2⟩ := h
    rw [List.map_eq_append_iff] at h2
    obtain ⟨e, r, rfl, he, hr⟩ := h2
    obtain ⟨r, rfl, hr'⟩ := mapw_one hr
    exact ⟨l, e, r, rfl, h1, he, hr'⟩

theorem hd_of {t : Tk} {c : Char} {w : Str} (h : t.w = c :: w) : t.hd = c := by simp [Spec.Tk.hd, h]

theorem symOk_of {t : Tk} {c : Char} {w : Str} (h : t.w = c :: w) (hc : isIdC c = false) : symOk t = true := by
  simp [symOk, hd_of h, hc]

theorem afterAtom_facts {t : Tk} {k : List Tk} (h : AfterAtom (t :: k)) : t.hd ≠ '(' ∧ t.hd ≠ '[' ∧ t.hd ≠ '"' ∧
    t.hd ≠ '\'' ∧ isIdC t.hd = false := by
  have := afterAtom_hd h
  generalize t.hd = c at this
  revert c
  decide

theorem numberP_sym {doc : Doc} {x : Pos} {t : Tk} {k : List Tk} (h : At doc x (t :: k))
    (hs : t.hd.isDigit = false ∧ t.hd ≠ '+' ∧ t.hd ≠ '-' ∧ t.hd ≠ '.' ∧ isSpaceC t.hd = false) :
    numberP x = none := by
  obtain ⟨w, e⟩ := h.start.cons
  obtain ⟨h1, h2, h3, h4, h5⟩ := hs
  unfold numberP
  rw [h.start.rest, e, List.cons_append]
  generalize w ++ (adv x t).rest = s
  generalize t.hd = c at *
  have hsign : signTok (c :: s) = ([], c :: s) := by
    unfold signTok
    split
    · rename_i e; cases e; exact absurd rfl h2
    · rename_i e; cases e; exact absurd rfl h3
    · simp [h5]
  have hf : floatTok (c :: s) = none := by
    unfold floatTok
    rw [hsign]
    have : mantTok (c :: s) = none := by
      unfold mantTok
      split
      · rename_i e; cases e; exact absurd rfl h4
      · rename_i e; cases e; simp [h1]
      · rename_i e; cases e; simp [h1]
      · rfl
    simp [this]
  have hh : hexTok (c :: s) = none := by
    unfold hexTok
    rw [hsign]
    split
    · rename_i e; cases e; exact absurd h1 (by decide)
    · rfl
  have hd : decTok (c :: s) = none := by
    unfold decTok
    rw [hsign]
    simp [h1]
  simp [integerTok, hf, hh, hd]

theorem leftOps_word {doc : Doc} {x : Pos} {t : Tk} {k : List Tk} (h : At doc x (t :: k)) (hk : k ≠ [])
    (hw : wordOk t.w = true) (h1 : startsWith t.w c%"sizeof" = false) (h2 : startsWith t.w c%"new" = false) :
    oneOfP leftOps x = none := by
  have hpre : ∀ o : Str, (o.all isIdC = true) → startsWith t.w o = false →
      startsWith x.skip.rest o = false := by
    intro o ho hf
    cases e : startsWith x.skip.rest o with
    | false => rfl
    | true =>
      rw [h.start.rest] at e
      by_cases hl : o.length ≤ t.w.length
      · rw [startsWith_append_word _ _ _ e hl] at hf
        cases hf
      · obtain ⟨c, hc, hm⟩ := startsWith_append_short _ _ _ e (by omega)
        have := (after_word h hk hw c hc).1
        rw [List.all_eq_true.1 ho c hm] at this
        cases this
  have hhd : isIdC t.hd = true := by
    obtain ⟨w, e⟩ := h.start.cons
    rw [e] at hw
    simp only [wordOk, List.all_cons, Bool.and_eq_true] at hw
    exact isIdC_of_word hw.2.1
  unfold oneOfP
  have : leftOps.find? (startsWith x.skip.rest) = none := by
    rw [List.find?_eq_none]
    intro o ho
    simp only [leftOps, List.mem_cons, List.not_mem_nil, or_false] at ho
    have hsym : ∀ (c : Char) (w : Str), isIdC c = false → startsWith x.skip.rest (c :: w) = false := by
      intro c w hc
      obtain ⟨v, e⟩ := h.start.cons
      rw [h.start.rest, e, List.cons_append]
      apply startsWith_head (by simp)
      simp only [List.head?_cons, ne_eq, Option.some.injEq]
      intro e
      rw [e, hhd] at hc
      cases hc
    rcases ho with ho | ho | ho | ho | ho | ho | ho <;> subst ho
    · rw [hsym _ _ (by decide)]; simp
    · rw [hsym _ _ (by decide)]; simp
    · rw [hpre _ (by decide) h1]; simp
    · rw [hpre _ (by decide) h2]; simp
    · rw [hsym _ _ (by decide)]; simp
    · rw [hsym _ _ (by decide)]; simp
    · rw [hsym _ _ (by decide)]; simp
  rw [this]
  rfl

theorem indexLoop_no {rec : PP Str} {x : Pos} (h : lit '[' x = none) (n : Nat) : indexLoop rec n x = ([], x) := by
  cases n with
  | zero => rfl
  | succ n => simp only [indexLoop, h, Option.bind_none]

theorem commaLoop_no {α : Type} {p : PP α} {x : Pos} (h : lit ',' x = none) (n : Nat) :
    commaLoop p n x = ([], x) := by
  cases n with
  | zero => rfl
  | succ n => simp only [commaLoop, h]

/-- A number token starts with a digit. -/
theorem intTok_hd {t : Tk} {v : Str} (h : intTok t.w v) : t.hd.isDigit = true := by
  obtain ⟨suf, e, _, hv⟩ := h
  rcases hv with ⟨h0, h1⟩ | ⟨x, ds, rfl, _⟩
  · cases v with
    | nil => exact absurd rfl h0
    | cons d v =>
      rw [hd_of e]
      simp only [List.all_cons, Bool.and_eq_true] at h1
      exact h1.1
  · rw [hd_of e]
    decide

theorem digit_start {c : Char} (h : c.isDigit = true) : isIdentStart c = false := by
  simp only [Char.isDigit, Bool.and_eq_true, decide_eq_true_eq] at h
  have h1 : 48 ≤ c.toNat := h.1
  have h2 : c.toNat ≤ 57 := h.2
  have hc : c ≠ '_' := by
    intro e
    subst e
    revert h2
    decide
  simp only [isIdentStart, Char.isAlpha, Char.isUpper, Char.isLower, Bool.or_eq_false_iff,
    decide_eq_false_iff_not, Bool.and_eq_false_iff, hc, not_false_eq_true, and_true]
  constructor
  · rintro ⟨h3, _⟩
    have h3 : 65 ≤ c.toNat := h3
    omega
  · left
    intro h3
    have h3 : 97 ≤ c.toNat := h3
    omega

theorem identP_num {doc : Doc} {x : Pos} {t : Tk} {k : List Tk} (h : At doc x (t :: k)) (hk : k ≠ [])
    {v : Str} (hi : intTok t.w v) (cfg : Cfg) : identP cfg x = none := by
  rw [identP_word h hk (intTok_word hi), digit_start (intTok_hd hi)]
  simp

/-! ### Literals -/

/-- A literal is read as a whole. -/
theorem quoted_lit {q : Char} (hq : q = '"' ∨ q = '\'') {its : List Spec.Item} (hi : ∀ i ∈ its, Spec.Item.Ok q i) {r : Str}
    (hr : r.head? ≠ some q) : matchQuoted q (its.flatMap Spec.Item.text ++ [q] ++ r) = some (its.flatMap Spec.Item.text ++ [q], r) := by
  have := matchQuoted_lits q (by rcases hq with h | h <;> subst h <;> decide) its [] r hi (by simp) hr
  simpa using this

theorem lit_last (q : Char) (its : List Spec.Item) : (Spec.litText q its).getLastD ' ' = q := by
  have : Spec.litText q its = (q :: its.flatMap Spec.Item.text) ++ [q] := by simp [Spec.litText]
  rw [this, List.getLastD_eq_getLast?, List.getLast?_concat]
  rfl

/-- The character after a literal is not its quote. -/
theorem after_lit {doc : Doc} {x : Pos} {t : Tk} {k : List Tk} (h : At doc x (t :: k)) (hk : k ≠ []) {q : Char} (hq : q = '"' ∨ q = '\'')
    {its : List Spec.Item} (e : t.w = Spec.litText q its) : (adv x t).rest.head? ≠ some q := by
  intro hc
  have := h.start.after hk q hc
  rw [e, lit_last] at this
  rcases hq with h | h <;> subst h <;> revert this <;> decide

theorem quotedTok_read {doc : Doc} {x : Pos} {t : Tk} {k : List Tk} (h : At doc x (t :: k)) (hk : k ≠ []) (hs : strTok t.w) :
    quotedTok x = some (t.w, adv x t) := by
  obtain ⟨q, its, hq, hi, e⟩ := hs
  have hm := quoted_lit hq hi (after_lit h hk hq e)
  have hb : (q = '"' || q = '\'') = true := by rcases hq with h | h <;> subst h <;> decide
  have hl : (adv x t).prev = q := by simp only [adv, posAfter]; rw [e, lit_last]
  unfold quotedTok
  rw [h.start.rest, e, Spec.litText]
  simp only [List.cons_append]
  rw [if_pos hb, hm]
  simp only [Option.map_some]
  congr 2
  rw [← hl]

/-! ### Floating constants -/

/-- The character after a token is white space or the first one of the next token. -/
theorem next_char {doc : Doc} {y : Pos} {t : Tk} {k : List Tk} (h : At doc y (t :: k)) {c : Char} (hc : y.rest.head? = some c) :
    isWhite c = true ∨ c = t.hd := by
  cases hw : isWhite c with
  | true => exact .inl rfl
  | false =>
    obtain ⟨p, r⟩ := y
    cases r with
    | nil => simp at hc
    | cons a r =>
      simp only [List.head?_cons, Option.some.injEq] at hc
      subst hc
      have hr := h.start.rest
      obtain ⟨w, e⟩ := h.start.cons
      rw [e] at hr
      simp only [Pos.skip, skipWs, hw, Bool.false_eq_true, if_false, List.cons_append, List.cons.injEq] at hr
      exact .inr hr.1

/-- Where a floating constant ends. -/
def floEnd (r : Str) : Prop := ∀ c, r.head? = some c → c.isDigit = false ∧ c ≠ 'e' ∧ c ≠ 'E' ∧ c ≠ '.'

theorem expoTok_read {e r : Str} (hr : floEnd r) (he : ∃ x s ds, e = x :: s ++ ds ∧ (x = 'e' ∨ x = 'E') ∧
    (s = [] ∨ s = ['+'] ∨ s = ['-']) ∧ ds ≠ [] ∧ ds.all Char.isDigit = true) : expoTok (e ++ r) = some (e, r) := by
  obtain ⟨x, s, ds, rfl, hx, hs, hne, hd⟩ := he
  have ht := takeWhile_append_stop Char.isDigit ds r hd (fun c hc => (hr c hc).1)
  have hb : (x = 'e' || x = 'E') = true := by rcases hx with h | h <;> subst h <;> decide
  cases ds with
  | nil => exact absurd rfl hne
  | cons d ds =>
  simp only [List.all_cons, Bool.and_eq_true] at hd
  have hn := isDigit_facts hd.1
  rcases hs with h | h | h <;> subst h
  · simp only [List.cons_append, List.nil_append] at ht ⊢
    simp [expoTok, hx, hn.1, hn.2.1, ht.1, ht.2]
  · simp only [List.cons_append, List.nil_append, expoTok, hb, if_true] at ht ⊢
    simp only [ht.1, ht.2]
  · simp only [List.cons_append, List.nil_append, expoTok, hb, if_true] at ht ⊢
    simp only [ht.1, ht.2]

theorem expoTok_no {r : Str} (hr : floEnd r) : expoTok r = none := by
  cases r with
  | nil => rfl
  | cons c r =>
    have := hr c rfl
    simp [expoTok, this]

theorem mantTok_point {d : Char} (hd : d.isDigit = true) (s : Str) : mantTok (d :: '.' :: s) =
    some (true, d :: '.' :: s.takeWhile Char.isDigit, s.dropWhile Char.isDigit) := by
  unfold mantTok
  split
  · rename_i e; cases e; exact absurd hd (by decide)
  · rename_i e; cases e; simp [hd]
  · rename_i h e; cases e; exact absurd rfl (h _)
  · rename_i e; cases e

theorem mantTok_digit {d c : Char} (hd : d.isDigit = true) (hc : c ≠ '.') (s : Str) : mantTok (d :: c :: s) = some (false, [d], c :: s) := by
  unfold mantTok
  split
  · rename_i e; cases e; exact absurd hd (by decide)
  · rename_i e; cases e; exact absurd rfl hc
  · rename_i h e; cases e; simp [hd]
  · rename_i e; cases e

theorem signTok_other {c : Char} (h : c = '.' ∨ c.isDigit = true) (s : Str) : signTok (c :: s) = ([], c :: s) := by
  have h2 : c ≠ '+' := by rintro rfl; revert h; decide
  have h3 : c ≠ '-' := by rintro rfl; revert h; decide
  have h5 : isSpaceC c = false := by
    rcases h with h | h
    · subst h; decide
    · exact (isDigit_facts h).2.2.1
  unfold signTok
  split
  · rename_i e; cases e; exact absurd rfl h2
  · rename_i e; cases e; exact absurd rfl h3
  · simp [h5]

/-- The end of a floating constant. -/
theorem floatTok_end {s m t r e : Str} {pt : Bool} {c : Char} {s' : Str} (hs : s = c :: s') (hc : c = '.' ∨ c.isDigit = true)
    (hm : mantTok s = some (pt, m, t)) (ht : t = e ++ r) (hr : floEnd r) (hp : pt = true ∨ e ≠ [])
    (he : e = [] ∨ ∃ x s ds, e = x :: s ++ ds ∧ (x = 'e' ∨ x = 'E') ∧ (s = [] ∨ s = ['+'] ∨ s = ['-']) ∧ ds ≠ [] ∧
      ds.all Char.isDigit = true) : floatTok s = some (m ++ e, [], r) := by
  subst hs ht
  unfold floatTok
  rw [signTok_other hc]
  simp only [hm, List.nil_append]
  rcases he with rfl | he
  · rcases hp with rfl | hp
    · simp [expoTok_no hr]
    · exact absurd rfl hp
  · rw [expoTok_read hr he]

theorem floatTok_read {w r : Str} (hf : floTok w) (hr : floEnd r) : floatTok (w ++ r) = some (w, [], r) := by
  obtain ⟨m, e, rfl, hm, he⟩ := hf
  have hstop : ∀ c, (e ++ r).head? = some c → c.isDigit = false := by
    intro c hc
    rcases he with rfl | ⟨x, s, ds, rfl, hx, _⟩
    · exact (hr c (by simpa using hc)).1
    · simp only [List.cons_append, List.head?_cons, Option.some.injEq] at hc
      subst hc
      rcases hx with h | h <;> subst h <;> decide
  rcases hm with ⟨d, ds, rfl, hd, hds⟩ | ⟨ds, rfl, hne, hds⟩ | ⟨d, rfl, hd, hne⟩
  · have ht := takeWhile_append_stop Char.isDigit ds (e ++ r) hds hstop
    refine floatTok_end (c := d) rfl (.inr hd) (pt := true) (m := d :: '.' :: ds) (t := e ++ r) ?_ rfl hr (.inl rfl) he
    simp only [List.cons_append, List.append_assoc, mantTok_point hd, ht.1, ht.2]
  · have ht := takeWhile_append_stop Char.isDigit ds (e ++ r) hds hstop
    refine floatTok_end (c := '.') rfl (.inl rfl) (pt := true) (m := '.' :: ds) (t := e ++ r) ?_ rfl hr (.inl rfl) he
    cases ds with
    | nil => exact absurd rfl hne
    | cons d ds =>
      simp only [List.cons_append, List.append_assoc, mantTok] at ht ⊢
      simp only [ht.1, ht.2]
  · refine floatTok_end (c := d) rfl (.inr hd) (pt := false) (m := [d]) (t := e ++ r) ?_ rfl hr (.inr hne) he
    rcases he with rfl | ⟨x, s, ds, rfl, hx, _⟩
    · exact absurd rfl hne
    · simp only [List.cons_append, List.nil_append, List.append_assoc]
      exact mantTok_digit hd (by rcases hx with h | h <;> subst h <;> decide) _

theorem floTok_hd {w : Str} (hf : floTok w) : ∃ c r, w = c :: r ∧ (c = '.' ∨ c.isDigit = true) := by
  obtain ⟨m, e, rfl, hm, _⟩ := hf
  rcases hm with ⟨d, ds, rfl, hd, _⟩ | ⟨ds, rfl, _⟩ | ⟨d, rfl, hd, _⟩
  · exact ⟨d, _, rfl, .inr hd⟩
  · exact ⟨'.', _, rfl, .inl rfl⟩
  · exact ⟨d, _, rfl, .inr hd⟩

/-- How an operand begins. -/
theorem base_head {g : Gram} {ts out : List Str} (h : CBase g ts out) :
    (∃ n, ts = [n] ∧ identOk g n = true) ∨ (∃ c w rest, ts = (c :: w) :: rest ∧ (isIdC c = false ∨ c.isDigit = true)) := by
  cases h with
  | ident n h1 => exact .inl ⟨n, rfl, h1⟩
  | num w v hv =>
    have := intTok_hd (t := ⟨w, none⟩) hv
    cases w with
    | nil => exact absurd this (by decide)
    | cons c w => exact .inr ⟨c, w, [], rfl, .inr this⟩
  | float w hf =>
    obtain ⟨c, w, rfl, h⟩ := floTok_hd hf
    exact .inr ⟨c, w, [], rfl, h.elim (fun h => .inl (by subst h; decide)) .inr⟩
  | str w hs =>
    obtain ⟨q, its, hq, _, rfl⟩ := hs
    exact .inr ⟨q, _, [], rfl, .inl (by rcases hq with h | h <;> subst h <;> decide)⟩
  | paren ts out _ => exact .inr ⟨'(', [], _, rfl, .inl (by decide)⟩

/-- How an expression begins. -/
theorem atom_head {g : Gram} {ts out : List Str} (h : CAtom g ts out) :
    (∃ n, ts = [n] ∧ identOk g n = true) ∨ (∃ c w rest, ts = (c :: w) :: rest ∧ (isIdC c = false ∨ c.isDigit = true)) := by
  cases h with
  | base _ _ h _ => exact base_head h
  | cast n ts _ _ _ => exact .inr ⟨'(', [], _, rfl, .inl (by decide)⟩
  | sign o ts out ho _ =>
    simp only [signOps, List.mem_cons, List.not_mem_nil, or_false] at ho
    rcases ho with ho | ho <;> subst ho
    · exact .inr ⟨'-', [], ts, rfl, .inl (by decide)⟩
    · exact .inr ⟨'+', [], ts, rfl, .inl (by decide)⟩

/-- How an expression begins. -/
theorem expr_head {g : Gram} {ts out : List Str} (h : CExpr g ts out) :
    (∃ n rest, ts = n :: rest ∧ identOk g n = true ∧ (rest = [] ∨ ∃ o r, rest = o :: r ∧ o ∈ binOps)) ∨
      (∃ c w rest, ts = (c :: w) :: rest ∧ (isIdC c = false ∨ c.isDigit = true)) := by
  cases h with
  | atom _ _ ha =>
    rcases atom_head ha with ⟨n, rfl, h⟩ | ⟨c, w, r, rfl, h⟩
    · exact .inl ⟨n, [], rfl, h, .inl rfl⟩
    · exact .inr ⟨c, w, r, rfl, h⟩
  | bin a _ o b _ ha ho _ =>
    rcases atom_head ha with ⟨n, rfl, h⟩ | ⟨c, w, r, rfl, h⟩
    · exact .inl ⟨n, o :: b, rfl, h, .inr ⟨o, b, rfl, ho⟩⟩
    · exact .inr ⟨c, w, r ++ o :: b, rfl, h⟩

theorem identP_digit {doc : Doc} {x : Pos} {t : Tk} {k : List Tk} (h : At doc x (t :: k)) (hd : t.hd.isDigit = true) (cfg : Cfg) :
    identP cfg x = none := by
  obtain ⟨w, e⟩ := h.start.cons
  have hr := h.start.rest
  rw [e] at hr
  simp [identP, hr, digit_start hd]

/-- No identifier begins here. -/
theorem identP_other {doc : Doc} {x : Pos} {t : Tk} {k : List Tk} (h : At doc x (t :: k)) (hd : isIdC t.hd = false ∨ t.hd.isDigit = true)
    (cfg : Cfg) : identP cfg x = none := by
  rcases hd with hd | hd
  · exact identP_sym h (by simp [symOk, hd]) cfg
  · exact identP_digit h hd cfg

/-- No cast is seen in front of an operand. -/
theorem cast_no {g : Gram} {doc : Doc} {ts out : List Str} (hb : CBase g ts out) (hn : ∀ n, ts = [c%"(", n, c%")"] → identOk g n = false)
    (tks k : List Tk) (x : Pos) (he : tks.map Tk.w = ts) (h : At doc x (tks ++ k)) : castP g.cfg x = x := by
  have other : ∀ t tks, At doc x (t :: tks) → t.hd ≠ '(' → castP g.cfg x = x := by
    intro t tks h hh
    unfold castP
    rw [lit_no h hh]
    rfl
  cases hb with
  | ident n h1 h2 h3 =>
    obtain ⟨t, rfl, rfl⟩ := mapw_one he
    refine other t _ h ?_
    intro e
    have := (identOk_spec h1).head
    rw [e] at this
    revert this
    decide
  | num w v hv =>
    obtain ⟨t, rfl, rfl⟩ := mapw_one he
    refine other t _ h ?_
    intro e
    have := intTok_hd hv
    rw [e] at this
    revert this
    decide
  | float w hf =>
    obtain ⟨t, rfl, rfl⟩ := mapw_one he
    refine other t _ h ?_
    obtain ⟨c, w, e, hc⟩ := floTok_hd hf
    rw [hd_of e]
    rcases hc with hc | hc
    · subst hc; decide
    · intro e; subst e; revert hc; decide
  | str w hs =>
    obtain ⟨t, rfl, rfl⟩ := mapw_one he
    refine other t _ h ?_
    obtain ⟨q, its, hq, _, e⟩ := hs
    rw [hd_of e]
    rcases hq with h | h <;> subst h <;> decide
  | paren ts out he' =>
    obtain ⟨l, e, r, rfl, hlw, rfl, hrw⟩ := mapw_paren he
    have hne := (expr_ne he').1
    rw [List.cons_append, List.append_assoc] at h
    have hin := At.tail h
    unfold castP
    rw [lit_yes h hlw]
    simp only [Option.bind_some]
    cases e with
    | nil => simp at hne
    | cons u e =>
      rcases expr_head he' with ⟨n, rest, e1, hi, hr'⟩ | ⟨c, w, rest, e1, hc⟩
      · simp only [List.map_cons, List.cons.injEq] at e1
        obtain ⟨rfl, rfl⟩ := e1
        rw [identP_ident hin (by simp) hi]
        simp only
        rcases hr' with hr' | ⟨o, r', e2, ho⟩
        · have := hn u.w (by simp [hr'])
          rw [hi] at this
          cases this
        · cases e with
          | nil => simp at e2
          | cons v e =>
            simp only [List.map_cons, List.cons.injEq] at e2
            rw [lit_no (At.tail hin)]
            · rfl
            · have := hd_mem (e2.1 ▸ ho)
              intro e
              rw [e] at this
              revert this
              decide
      · simp only [List.map_cons, List.cons.injEq] at e1
        rw [identP_other hin (by rw [hd_of e1.1]; exact hc)]

/-- A cast to a named type is skipped. -/
theorem cast_yes {g : Gram} {doc : Doc} {l n r : Tk} {k : List Tk} {x : Pos} (h : At doc x (l :: n :: r :: k)) (hl : l.w = c%"(")
    (hn : identOk g n.w = true) (hr : r.w = c%")") : castP g.cfg x = advs x [l, n, r] := by
  unfold castP
  rw [lit_yes h hl]
  simp only [Option.bind_some]
  rw [identP_ident (At.tail h) (by simp) hn]
  simp only
  rw [lit_yes (At.tail (At.tail h)) hr]
  rfl

/-- The core of an operand is read and no operator is seen in front of it. -/
theorem base_read {g : Gram} {doc : Doc} {rec : PP Str} {m : Nat} (hrec : ExprReads g doc rec m)
    {ts out : List Str} (hb : CBase g ts out) (tks k : List Tk) (x : Pos) (he : tks.map Tk.w = ts)
    (h : At doc x (tks ++ k)) (hl : tks.length ≤ m + 1) (ha : AfterAtom k) :
    oneOfP leftOps x = none ∧ ∃ out', coreP g.cfg rec x = some (out', advs x tks) ∧ JEq out' out := by
  obtain ⟨t1, k1, rfl⟩ : ∃ t k', k = t :: k' := by
    cases k with
    | nil => exact absurd ha (by simp [AfterAtom])
    | cons t k => exact ⟨t, k, rfl⟩
  have hf := afterAtom_facts ha
  have hdig : ∀ c : Char, c.isDigit = true → ∀ o ∈ leftOps, o ≠ [] ∧ o.head? ≠ some c := by
    intro c hd o ho
    have : ∀ o ∈ leftOps, o ≠ [] ∧ ∀ c, o.head? = some c → c.isDigit = false := by
      intro o ho
      simp only [leftOps, List.mem_cons, List.not_mem_nil, or_false] at ho
      rcases ho with ho | ho | ho | ho | ho | ho | ho <;> subst ho <;> simp <;> decide
    refine ⟨(this o ho).1, fun e => ?_⟩
    rw [(this o ho).2 _ e] at hd
    cases hd
  cases hb with
  | ident n h1 h2 h3 =>
    obtain ⟨t, rfl, rfl⟩ := mapw_one he
    have hid := identOk_spec h1
    have hk : ([] ++ t1 :: k1 : List Tk) ≠ [] := by simp
    have hn := At.tail h
    refine ⟨leftOps_word h hk hid.word h2 h3, [t.w], ?_, JEq.refl (by simp)⟩
    unfold coreP
    simp only [identP_ident h hk h1]
    have hc : callP rec (adv x t) = none := by
      unfold callP
      rw [lit_no hn hf.1]
    simp only [hc, indexLoop_no (lit_no hn hf.2.1)]
    rfl
  | num w v hv =>
    obtain ⟨t, rfl, rfl⟩ := mapw_one he
    have hk : ([] ++ t1 :: k1 : List Tk) ≠ [] := by simp
    refine ⟨oneOfP_no h _ (hdig _ (intTok_hd hv)), [v], ?_, JEq.refl (by simp)⟩
    unfold coreP
    simp only [identP_num h hk hv, numberP_read h hk hv]
    rfl
  | float w hw =>
    obtain ⟨t, rfl, rfl⟩ := mapw_one he
    have hn := At.tail h
    obtain ⟨c, w, e, hc⟩ := floTok_hd hw
    have hc' : isIdC t.hd = false ∨ t.hd.isDigit = true := by
      rw [hd_of e]
      exact hc.elim (fun h => .inl (by subst h; decide)) .inr
    refine ⟨oneOfP_no h _ ?_, [t.w], ?_, JEq.refl (by simp)⟩
    · rw [hd_of e]
      rcases hc with hc | hc
      · subst hc; decide
      · exact hdig _ hc
    · have hend : floEnd (adv x t).rest := by
        intro c hc
        rcases next_char hn hc with h | h
        · rcases isWhite_cases h with e | e | e | e <;> subst e <;> decide
        · subst h
          have := afterAtom_hd ha
          generalize t1.hd = c at this
          revert c
          decide
      unfold coreP
      have hnum : numberP x = some (t.w, adv x t) := by
        unfold numberP
        rw [h.start.rest, floatTok_read hw hend]
        simp only [Option.some_or, Option.map_some, numEnd, List.append_nil]
        rfl
      simp only [identP_other h hc', hnum]
      rfl
  | str w hs =>
    obtain ⟨t, rfl, rfl⟩ := mapw_one he
    have hk : ([] ++ t1 :: k1 : List Tk) ≠ [] := by simp
    have hq : t.hd = '"' ∨ t.hd = '\'' := by
      obtain ⟨q, its, hq, _, e⟩ := hs
      rw [hd_of e]
      exact hq
    refine ⟨oneOfP_no h _ (by rcases hq with e | e <;> rw [e] <;> decide), [t.w], ?_, JEq.refl (by simp)⟩
    unfold coreP
    simp only [identP_other h (.inl (by rcases hq with e | e <;> rw [e] <;> decide)),
      numberP_sym h (by rcases hq with e | e <;> rw [e] <;> decide), quotedTok_read h hk hs]
    rfl
  | paren ts out he' =>
    obtain ⟨l, e, r, rfl, hlw, rfl, hrw⟩ := mapw_paren he
    have hlen : e.length ≤ m := by simp at hl; omega
    rw [List.cons_append, List.append_assoc] at h
    have hin := At.tail h
    have hrd := hrec e ([r] ++ t1 :: k1) out (adv x l) he' hlen hin (by simp [AfterExpr, hd_of hrw, endChars])
    have hr := At.drop e hin
    have hpar := lit_yes h hlw
    have hclose := lit_yes hr hrw
    refine ⟨?_, [c%"(", joinC ' ' out, c%")"], ?_, ?_⟩
    · apply oneOfP_no h
      rw [hd_of hlw]
      decide
    · unfold coreP
      have hs : symOk l = true := symOk_of hlw (by decide)
      simp only [identP_sym h hs, numberP_sym h (by rw [hd_of hlw]; decide),
        quotedTok_no h (by rw [hd_of hlw]; decide), hpar, Option.bind_some, hrd, hclose, Option.map_some]
      simp [advs, advs_append]
    · have := JEq.append (JEq.refl (a := [c%"("]) (by simp))
        (JEq.append (JEq.join (expr_ne he').2) (JEq.refl (a := [c%")"]) (by simp)))
      simpa using this

theorem atom_read {g : Gram} {doc : Doc} {rec : PP Str} {m : Nat} (hrec : ExprReads g doc rec m)
    {ts out : List Str} (hb : CAtom g ts out) (tks k : List Tk) (x : Pos) (he : tks.map Tk.w = ts)
    (h : At doc x (tks ++ k)) (hl : tks.length ≤ m + 1) (ha : AfterAtom k) :
    ∃ out', atomP g.cfg rec x = some (out', advs x tks) ∧ JEq out' out := by
  obtain ⟨os, cs, c, co, rfl, rfl, hos, hc, hcs⟩ := atom_base hb
  rw [List.map_eq_append_iff] at he
  obtain ⟨t1, t2, rfl, rfl, he⟩ := he
  rw [List.map_eq_append_iff] at he
  obtain ⟨t3, t4, rfl, rfl, rfl⟩ := he
  have hlen := At.length h
  rw [List.append_assoc, List.append_assoc] at h
  have hd := At.drop t1 h
  have hd' := At.drop t3 hd
  obtain ⟨h2, out', h3, h4⟩ := base_read hrec hc t4 k (advs (advs x t1) t3) rfl hd' (by simp at hl; omega) ha
  have h1 : castP g.cfg (advs x t1) = advs (advs x t1) t3 ∧ oneOfP leftOps (advs x t1) = none := by
    rcases hcs with ⟨e, hn⟩ | ⟨n, e, hn⟩
    · obtain rfl : t3 = [] := by simpa using e
      exact ⟨cast_no hc hn t4 k _ rfl hd, h2⟩
    · obtain ⟨l, t3, rfl, el, e⟩ := List.map_eq_cons_iff.1 e
      obtain ⟨u, t3, rfl, eu, e⟩ := List.map_eq_cons_iff.1 e
      obtain ⟨r, rfl, er⟩ := mapw_one e
      refine ⟨cast_yes hd el (by rw [eu]; exact hn) er, ?_⟩
      apply oneOfP_no hd
      rw [hd_of el]
      decide
  have hops := opsLoop_signs t1 x (t3 ++ (t4 ++ k)) x.rest.length h
    (by simp [ha.ne]) (fun o ho => hos o.w (List.mem_map.2 ⟨o, ho, rfl⟩)) h1.2
    (by simp at hlen; omega)
  refine ⟨t1.map Tk.w ++ out', ?_, JEq.prepend _ h4⟩
  have hr := opsLoop_no (rightOps_no (At.drop t4 hd') ha) (advs (advs (advs x t1) t3) t4).rest.length
  unfold atomP atomEnd
  simp only [hops, h1.1, h3, hr, List.append_nil, Option.some_or, advs_append]

theorem bi_read {g : Gram} {doc : Doc} {rec : PP Str} {m : Nat} (hrec : ExprReads g doc rec m) (N : Nat) :
    ∀ {ts out : List Str}, CExpr g ts out → ∀ (tks k : List Tk) (x : Pos), tks.length ≤ N → tks.map Tk.w = ts →
      At doc x (tks ++ k) → tks.length ≤ m + 1 → AfterExpr k →
      ∃ out' t1 t2 a b, JEq out' out ∧ tks = t1 ++ t2 ∧ atomP g.cfg rec x = some (a, advs x t1) ∧
        (∀ n, (advs x t1).rest.length ≤ n → biLoop g.cfg rec n (advs x t1) = (b, advs x tks)) ∧ a ++ b = out' := by
  induction N with
  | zero =>
    intro ts out he tks k x hN hm
    have := (expr_ne he).1
    cases tks with
    | nil => exact absurd hm.symm this
    | cons => simp at hN
  | succ N ih =>
  intro ts out hex tks k x hN he h hl hk
  cases hex with
  | atom ts out ha =>
    obtain ⟨out', h1, h2⟩ := atom_read hrec ha tks k x he h hl hk.atom
    refine ⟨out', tks, [], out', [], h2, by simp, h1, ?_, by simp⟩
    intro n _
    cases n with
    | zero => rfl
    | succ n =>
      have : oneOfP biOps (advs x tks) = none := by
        have hd := At.drop tks h
        cases k with
        | nil => exact absurd hk (by simp [AfterExpr])
        | cons t k =>
          apply oneOfP_no hd
          simp only [AfterExpr] at hk
          generalize t.hd = c at hk
          revert c
          decide
      simp only [biLoop, this]
  | bin ts out o ts' out' ha ho hb =>
    rw [List.map_eq_append_iff] at he
    obtain ⟨t1, t2, rfl, rfl, he⟩ := he
    obtain ⟨t, t3, rfl, rfl, rfl⟩ := List.map_eq_cons_iff.1 he
    rw [List.append_assoc] at h
    have hne := (expr_ne hb).1
    have h3ne : t3 ++ k ≠ [] := by simp [hk.ne]
    simp only [List.length_append, List.length_cons] at hl hN
    obtain ⟨o1, h1, h2⟩ := atom_read hrec ha t1 (t :: t3 ++ k) x rfl h (by omega) (.inr ⟨ho, h3ne⟩)
    have hd := At.drop t1 h
    have hd' : At doc (adv (advs x t1) t) (t3 ++ k) := At.tail hd
    obtain ⟨o2, u1, u2, a, b, g1, g2, g3, g4, g5⟩ := ih hb t3 k (adv (advs x t1) t)
      (by omega) rfl hd' (by omega) hk
    refine ⟨o1 ++ (t.w :: o2), t1, t :: t3, o1, t.w :: o2,
      JEq.append h2 (JEq.append (a := [t.w]) (b := [t.w]) (JEq.refl (by simp)) g1), rfl, h1, ?_, rfl⟩
    intro n hn
    have hl1 := At.adv_length hd
    have hl2 : (advs (adv (advs x t1) t) u1).rest.length ≤ (adv (advs x t1) t).rest.length := by
      rw [g2, List.append_assoc] at hd'
      have := At.advs_length u1 hd'
      omega
    obtain ⟨n, rfl⟩ : ∃ m, n = m + 1 := ⟨n - 1, by omega⟩
    simp only [biLoop, oneOfP_bi hd h3ne ho, g3, g4 n (by omega), advs_append]
    rw [← g5]
    rfl

theorem exprN_succ (cfg : Cfg) (n : Nat) (x : Pos) : exprN cfg (n + 1) x =
    match atomP cfg (exprN cfg n) x with
    | none => none
    | some (ts, y) =>
      let r := biLoop cfg (exprN cfg n) y.rest.length y
      some (joinC ' ' (ts ++ r.1), r.2) := rfl

/-- Expressions of at most `m` tokens are read by `exprN` with bound `m`. -/
theorem exprN_reads (g : Gram) (doc : Doc) (m : Nat) : ExprReads g doc (exprN g.cfg m) m := by
  induction m with
  | zero =>
    intro tks k out x he hl h hk
    have := (expr_ne he).1
    cases tks with
    | nil => simp at this
    | cons => simp at hl
  | succ m ih =>
    unfold ExprReads
    intro tks k out x he hl h hk
    obtain ⟨out', t1, t2, a, b, h1, h2, h3, h4, h5⟩ := bi_read ih (m + 1) he tks k x hl rfl h hl hk
    have h4' := h4 (advs x t1).rest.length (Nat.le_refl _)
    have h5' : joinC ' ' (a ++ b) = joinC ' ' out := by rw [h5]; exact h1.2.2
    rw [exprN_succ, h3]
    dsimp only
    rw [h4']
    dsimp only
    rw [h5']

/-- Every expression is read, wherever it stands. -/
theorem exprP_read {g : Gram} {doc : Doc} {x : Pos} {tks k : List Tk} {e : Str} (he : ExprTks g tks e)
    (h : At doc x (tks ++ k)) (hk : AfterExpr k) : exprP g.cfg x = some (e, advs x tks) := by
  obtain ⟨out, he, rfl⟩ := he
  have hl := At.length h
  simp only [List.length_append] at hl
  exact exprN_reads g doc _ tks k out x he (by omega) h hk

/-- No expression begins with these characters. -/
theorem exprP_no {g : Gram} {doc : Doc} {x : Pos} {t : Tk} {k : List Tk} (h : At doc x (t :: k))
    (ht : t.hd = ']' ∨ t.hd = '{' ∨ t.hd = ')') : exprP g.cfg x = none := by
  have hs : symOk t = true := by rcases ht with ht | ht | ht <;> rw [symOk, ht] <;> decide
  have hl : oneOfP leftOps x = none := by
    apply oneOfP_no h
    rcases ht with ht | ht | ht <;> rw [ht] <;> decide
  have hp : lit '(' x = none := lit_no h (by rcases ht with ht | ht | ht <;> rw [ht] <;> decide)
  have hc : coreP g.cfg (exprN g.cfg x.rest.length) x = none := by
    unfold coreP
    simp only [identP_sym h hs, numberP_sym h (by rcases ht with ht | ht | ht <;> rw [ht] <;> decide),
      quotedTok_no h (by rcases ht with ht | ht | ht <;> rw [ht] <;> decide), hp, Option.bind_none]
  have hcast : castP g.cfg x = x := by
    unfold castP
    rw [hp]
    rfl
  unfold exprP
  rw [exprN_succ]
  unfold atomP atomEnd
  simp only [opsLoop_no hl, hcast, hc, Option.or_none]

theorem exprTks_ne {g : Gram} {tks : List Tk} {e : Str} (he : ExprTks g tks e) : tks ≠ [] := by
  obtain ⟨out, he, _⟩ := he
  have := (expr_ne he).1
  intro h
  rw [h] at this
  exact this rfl

end Pyclib
