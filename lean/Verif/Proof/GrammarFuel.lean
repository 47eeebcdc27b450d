import Verif.Proof.Grammar
import Verif.Props.Comments
/-
Every element of the grammar reads text, and recursion happens only after text has been read: the bounds of
the model are never reached.
-/
set_option linter.unusedSimpArgs false
namespace Pyclib

theorem dropWhile_len (p : Char → Bool) (s : Str) : (s.dropWhile p).length ≤ s.length :=
  (List.dropWhile_sublist p).length_le

theorem dropWhile_lt (p : Char → Bool) (s : Str) (h : s.takeWhile p ≠ []) : (s.dropWhile p).length < s.length := by
  have h1 := congrArg List.length (List.takeWhile_append_dropWhile (p := p) (l := s))
  rw [List.length_append] at h1
  have : 0 < (s.takeWhile p).length := List.length_pos_iff.2 h
  omega

theorem takeWhile_ne {p : Char → Bool} {c : Char} {s : Str} (h : p c = true) : (c :: s).takeWhile p ≠ [] := by
  simp [h]

theorem lit_len {c : Char} {x y : Pos} (h : lit c x = some y) : y.rest.length < x.rest.length := by
  have hs := skip_length x
  unfold lit at h
  split at h
  · simp at h
  · rename_i d s e
    rw [e] at hs
    split at h
    · cases h; simp only [List.length_cons] at hs; exact hs
    · simp at h

theorem matchQuoted_len {q : Char} {s b r : Str} (h : matchQuoted q s = some (b, r)) : r.length < s.length := by
  have h1 := congrArg List.length (matchQuoted_eq h)
  have : b ≠ [] := by
    unfold matchQuoted at h
    split at h
    · split at h
      · cases h; simp
      · simp at h
    · simp at h
  have := List.length_pos_iff.2 this
  rw [List.length_append] at h1
  omega

theorem quotedTok_len {x : Pos} {w : Str} {y : Pos} (h : quotedTok x = some (w, y)) :
    y.rest.length < x.rest.length := by
  have hs := skip_length x
  unfold quotedTok at h
  split at h
  · simp at h
  · rename_i q s e
    rw [e] at hs
    simp only [List.length_cons] at hs
    split at h
    · cases hm : matchQuoted q s with
      | none => simp [hm] at h
      | some p =>
        obtain ⟨b, r⟩ := p
        have := matchQuoted_len hm
        simp [hm] at h
        obtain ⟨_, rfl⟩ := h
        show r.length < _
        omega
    · simp at h

theorem skipQuoted_len : ∀ (n : Nat) (x : Pos), (skipQuoted n x).rest.length ≤ x.rest.length
  | 0, x => Nat.le_refl _
  | n + 1, x => by
    unfold skipQuoted
    cases h : quotedTok x with
    | none => exact Nat.le_refl _
    | some p =>
      obtain ⟨w, y⟩ := p
      have := quotedTok_len h
      have := skipQuoted_len n y
      simp only
      omega

/-- The bound of `skipQuoted` is never reached. -/
theorem skipQuoted_fuel : ∀ (n n' : Nat) (x : Pos), x.rest.length ≤ n → x.rest.length ≤ n' →
    skipQuoted n x = skipQuoted n' x := by
  have key : ∀ (n : Nat) (x : Pos), x.rest.length ≤ n → skipQuoted n x = skipQuoted (n + 1) x := by
    intro n
    induction n with
    | zero =>
      intro x hx
      unfold skipQuoted
      cases h : quotedTok x with
      | none => rfl
      | some p => obtain ⟨w, y⟩ := p; have := quotedTok_len h; omega
    | succ n ih =>
      intro x hx
      rw [skipQuoted]
      conv => rhs; rw [skipQuoted]
      cases h : quotedTok x with
      | none => rfl
      | some p => obtain ⟨w, y⟩ := p; have := quotedTok_len h; exact ih y (by omega)
  have up : ∀ (k n : Nat) (x : Pos), x.rest.length ≤ n → skipQuoted n x = skipQuoted (n + k) x := by
    intro k
    induction k with
    | zero => intro n x _; rfl
    | succ k ih => intro n x hx; rw [ih n x hx, key (n + k) x (by omega)]; rfl
  intro n n' x h h'
  rw [up (n' - n) n x h, up (n - n') n' x h']
  congr 1
  omega

theorem delim_len {c : Char} {x y : Pos} (h : delim c x = some y) : y.rest.length < x.rest.length := by
  have h1 := lit_len h
  have h2 := skipQuoted_len x.rest.length x
  omega

theorem kwl_len {ws : List Str} (hws : [] ∉ ws) {x : Pos} {w : Str} {y : Pos} (h : kwl ws x = some (w, y)) :
    y.rest.length < x.rest.length := by
  have hs := skip_length x
  unfold kwl at h
  simp only at h
  split at h
  · simp at h
  · split at h
    · rename_i hm
      simp only [Option.some.injEq, Prod.mk.injEq] at h
      obtain ⟨_, rfl⟩ := h
      have := dropWhile_lt isWordC x.skip.rest (fun e => hws (e ▸ hm))
      simp only [posAfter]
      omega
    · simp at h

theorem keyword_len {k : Str} (hk : k ≠ []) {x y : Pos} (h : keyword k x = some y) :
    y.rest.length < x.rest.length := by
  have hs := skip_length x
  unfold keyword at h
  simp only at h
  split at h
  · simp at h
  · split at h
    · rename_i hm
      cases h
      have := dropWhile_lt isIdC x.skip.rest (fun e => hk (hm ▸ e))
      simp only [posAfter]
      omega
    · simp at h

theorem isIdC_of_start {c : Char} (h : isIdentStart c = true) : isIdC c = true := by
  unfold isIdentStart at h
  simp only [Bool.or_eq_true, decide_eq_true_eq] at h
  rcases h with h | h
  · simp [isIdC, isWordC, Char.isAlphanum, h]
  · subst h; decide

theorem identP_len {cfg : Cfg} {x : Pos} {w : Str} {y : Pos} (h : identP cfg x = some (w, y)) :
    y.rest.length < x.rest.length := by
  have hs := skip_length x
  unfold identP at h
  simp only at h
  split at h
  · simp at h
  · split at h
    · simp at h
    · split at h
      · rename_i hm
        simp only [Option.some.injEq, Prod.mk.injEq] at h
        obtain ⟨_, rfl⟩ := h
        have := dropWhile_lt isIdC x.skip.rest (by
          cases e : x.skip.rest with
          | nil => simp [e] at hm
          | cons c s => rw [e] at hm; exact takeWhile_ne (isIdC_of_start (by simpa using hm)))
        simp only [posAfter]
        omega
      · simp at h

theorem underIdent_len {cfg : Cfg} {x y : Pos} (h : underIdent cfg x = some y) : y.rest.length < x.rest.length := by
  have hs := skip_length x
  unfold underIdent at h
  simp only at h
  split at h
  · simp at h
  · split at h
    · simp at h
    · split at h
      · rename_i hm
        split at h
        · cases h
          have h1 := dropWhile_len isIdC (Pos.skip ⟨'_', x.skip.rest.drop 2⟩).rest
          have h2 := skip_length ⟨'_', x.skip.rest.drop 2⟩
          simp only [List.length_drop] at h2
          have h3 : 0 < x.skip.rest.length := by
            cases e : x.skip.rest with
            | nil => rw [e] at hm; exact absurd hm (by decide)
            | cons c s => simp
          simp only [posAfter]
          omega
        · simp at h
      · simp at h

theorem nestLoop_cons (o c : Char) (n d : Nat) (a : Char) (s : Str) : nestLoop o c (n + 1) d (a :: s) =
    match (if a = '"' || a = '\'' then matchQuoted a s else none) with
    | some p => nestLoop o c n d p.2
    | none =>
      if a = o then nestLoop o c n (d + 1) s
      else if a = c then (match d with | 0 => some s | d + 1 => nestLoop o c n d s)
      else nestLoop o c n d s := rfl

theorem nestLoop_len {o c : Char} : ∀ {n d : Nat} {s r : Str}, nestLoop o c n d s = some r → r.length < s.length
  | 0, d, s, r, h => by simp [nestLoop] at h
  | n + 1, d, [], r, h => by simp [nestLoop] at h
  | n + 1, d, a :: s, r, h => by
    rw [nestLoop_cons] at h
    cases hq : (if a = '"' || a = '\'' then matchQuoted a s else none) with
    | some p =>
      obtain ⟨b, t⟩ := p
      simp only [hq] at h
      have h1 := nestLoop_len h
      split at hq
      · have := matchQuoted_len hq
        simp only [List.length_cons]
        omega
      · simp at hq
    | none =>
      simp only [hq] at h
      simp only [List.length_cons]
      split at h
      · have := nestLoop_len h; omega
      · split at h
        · cases d with
          | zero => simp only [Option.some.injEq] at h; subst h; omega
          | succ d => have := nestLoop_len h; omega
        · have := nestLoop_len h; omega

/-- The bound of `nestLoop` is never reached. -/
theorem nestLoop_fuel {o c : Char} : ∀ (n n' d : Nat) (s : Str), s.length ≤ n → s.length ≤ n' →
    nestLoop o c n d s = nestLoop o c n' d s
  | 0, 0, d, s, _, _ => rfl
  | 0, n' + 1, d, s, h, _ => by
    have : s = [] := List.eq_nil_of_length_eq_zero (by omega)
    subst this; simp [nestLoop]
  | n + 1, 0, d, s, _, h => by
    have : s = [] := List.eq_nil_of_length_eq_zero (by omega)
    subst this; simp [nestLoop]
  | n + 1, n' + 1, d, [], _, _ => by simp [nestLoop]
  | n + 1, n' + 1, d, a :: s, h, h' => by
    simp only [List.length_cons] at h h'
    rw [nestLoop_cons, nestLoop_cons]
    cases hq : (if a = '"' || a = '\'' then matchQuoted a s else none) with
    | some p =>
      obtain ⟨b, t⟩ := p
      simp only
      split at hq
      · have := matchQuoted_len hq
        exact nestLoop_fuel n n' d t (by omega) (by omega)
      · simp at hq
    | none =>
      simp only
      rw [nestLoop_fuel n n' (d + 1) s (by omega) (by omega), nestLoop_fuel n n' d s (by omega) (by omega)]
      cases d with
      | zero => rfl
      | succ d => simp only [nestLoop_fuel n n' d s (by omega) (by omega)]

theorem nestedP_len {o c : Char} {x y : Pos} (h : nestedP o c x = some y) : y.rest.length < x.rest.length := by
  unfold nestedP at h
  cases hl : lit o x with
  | none => simp [hl] at h
  | some z =>
    simp only [hl] at h
    have := lit_len hl
    cases hn : nestLoop o c z.rest.length 0 z.rest with
    | none => simp [hn] at h
    | some r =>
      have := nestLoop_len hn
      simp [hn] at h
      subst h
      simp only
      omega

theorem qual_words : [] ∉ qualWords := by decide

theorem qualLoop_len {cfg : Cfg} : ∀ (n : Nat) (x : Pos), (qualLoop cfg n x).2.rest.length ≤ x.rest.length
  | 0, x => Nat.le_refl _
  | n + 1, x => by
    rw [qualLoop]
    cases hu : underIdent cfg x with
    | some y =>
      have h1 := underIdent_len hu
      cases hn : nestedP '(' ')' y with
      | some z => have := nestedP_len hn; have := qualLoop_len (cfg := cfg) n z; simp only [hn]; omega
      | none => have := qualLoop_len (cfg := cfg) n y; simp only [hn]; omega
    | none =>
      cases hk : kwl qualWords x with
      | some p => obtain ⟨w, y⟩ := p; have := kwl_len qual_words hk; have := qualLoop_len (cfg := cfg) n y; simp only; omega
      | none => exact Nat.le_refl _

/-- The bound of `qualLoop` is never reached. -/
theorem qualLoop_fuel {cfg : Cfg} : ∀ (n n' : Nat) (x : Pos), x.rest.length ≤ n → x.rest.length ≤ n' →
    qualLoop cfg n x = qualLoop cfg n' x
  | 0, 0, x, _, _ => rfl
  | 0, n' + 1, x, h, _ => by
    rw [qualLoop, qualLoop]
    cases hu : underIdent cfg x with
    | some y => have := underIdent_len hu; omega
    | none =>
      cases hk : kwl qualWords x with
      | some p => obtain ⟨w, y⟩ := p; have := kwl_len qual_words hk; omega
      | none => rfl
  | n + 1, 0, x, _, h => by
    rw [qualLoop, qualLoop]
    cases hu : underIdent cfg x with
    | some y => have := underIdent_len hu; omega
    | none =>
      cases hk : kwl qualWords x with
      | some p => obtain ⟨w, y⟩ := p; have := kwl_len qual_words hk; omega
      | none => rfl
  | n + 1, n' + 1, x, h, h' => by
    rw [qualLoop, qualLoop]
    cases hu : underIdent cfg x with
    | some y =>
      have h1 := underIdent_len hu
      cases hn : nestedP '(' ')' y with
      | some z =>
        have := nestedP_len hn
        simp only [hn, qualLoop_fuel (cfg := cfg) n n' z (by omega) (by omega)]
      | none => simp only [hn, qualLoop_fuel (cfg := cfg) n n' y (by omega) (by omega)]
    | none =>
      cases hk : kwl qualWords x with
      | some p =>
        obtain ⟨w, y⟩ := p
        have := kwl_len qual_words hk
        simp only [qualLoop_fuel (cfg := cfg) n n' y (by omega) (by omega)]
      | none => rfl

theorem qualP_len {cfg : Cfg} (x : Pos) : (qualP cfg x).2.rest.length ≤ x.rest.length := qualLoop_len _ _

/-! ### Numbers and expressions -/

theorem signTok_len (s : Str) : (signTok s).2.length ≤ s.length := by
  unfold signTok
  split
  · rename_i s; have := dropWhile_len isSpaceC s; simp only [List.length_cons]; omega
  · rename_i s; have := dropWhile_len isSpaceC s; simp only [List.length_cons]; omega
  · exact dropWhile_len _ _

theorem hexTok_len {s a b r : Str} (h : hexTok s = some (a, b, r)) : r.length < s.length := by
  have hs := signTok_len s
  unfold hexTok at h
  split at h
  · rename_i g x hc t e
    rw [e] at hs
    split at h
    · simp only [Option.some.injEq, Prod.mk.injEq] at h
      obtain ⟨_, _, rfl⟩ := h
      have h1 := dropWhile_len isUL (t.dropWhile isHexC)
      have h2 := dropWhile_len isHexC t
      simp only [List.length_cons] at hs
      omega
    · simp at h
  · simp at h

theorem decTok_len {s a b r : Str} (h : decTok s = some (a, b, r)) : r.length < s.length := by
  have hs := signTok_len s
  unfold decTok at h
  split at h
  · rename_i g d t e
    rw [e] at hs
    split at h
    · simp only [Option.some.injEq, Prod.mk.injEq] at h
      obtain ⟨_, _, rfl⟩ := h
      have h1 := dropWhile_len isUL (t.dropWhile Char.isDigit)
      have h2 := dropWhile_len Char.isDigit t
      simp only [List.length_cons] at hs
      omega
    · simp at h
  · simp at h

theorem integerTok_len {s a b r : Str} (h : integerTok s = some (a, b, r)) : r.length < s.length := by
  unfold integerTok at h
  cases hh : hexTok s with
  | some p => rw [hh] at h; simp at h; subst h; exact hexTok_len hh
  | none => rw [hh] at h; simp at h; exact decTok_len h

theorem expoTok_len {s a r : Str} (h : expoTok s = some (a, r)) : r.length ≤ s.length := by
  unfold expoTok at h
  split at h
  · rename_i e s
    split at h
    · simp only at h
      split at h
      · simp at h
      · simp only [Option.some.injEq, Prod.mk.injEq] at h
        obtain ⟨_, rfl⟩ := h
        refine Nat.le_trans (dropWhile_len _ _) ?_
        split <;> simp only [List.length_cons] <;> omega
    · simp at h
  · simp at h

theorem mantTok_len {s : Str} {p : Bool} {m r : Str} (h : mantTok s = some (p, m, r)) : r.length < s.length := by
  unfold mantTok at h
  split at h
  · rename_i s
    split at h
    · simp at h
    · simp only [Option.some.injEq, Prod.mk.injEq] at h
      obtain ⟨_, _, rfl⟩ := h
      have := dropWhile_len Char.isDigit s
      simp only [List.length_cons]; omega
  · rename_i d s _
    split at h
    · simp only [Option.some.injEq, Prod.mk.injEq] at h
      obtain ⟨_, _, rfl⟩ := h
      have := dropWhile_len Char.isDigit s
      simp only [List.length_cons]; omega
    · simp at h
  · split at h
    · simp only [Option.some.injEq, Prod.mk.injEq] at h
      obtain ⟨_, _, rfl⟩ := h
      simp
    · simp at h
  · simp at h

theorem floatTok_len {s a b r : Str} (h : floatTok s = some (a, b, r)) : r.length < s.length := by
  have hs := signTok_len s
  unfold floatTok at h
  cases hm : mantTok (signTok s).2 with
  | none => simp [hm] at h
  | some q =>
    obtain ⟨p, m, t⟩ := q
    have h1 := mantTok_len hm
    simp only [hm] at h
    cases he : expoTok t with
    | some q =>
      obtain ⟨e, u⟩ := q
      have h2 := expoTok_len he
      simp only [he, Option.some.injEq, Prod.mk.injEq] at h
      obtain ⟨_, _, rfl⟩ := h
      omega
    | none =>
      simp only [he] at h
      split at h
      · simp only [Option.some.injEq, Prod.mk.injEq] at h
        obtain ⟨_, _, rfl⟩ := h
        omega
      · simp at h

theorem integerP_len {x : Pos} {t : Str} {y : Pos} (h : integerP x = some (t, y)) : y.rest.length < x.rest.length := by
  have hs := skip_length x
  unfold integerP at h
  cases hi : integerTok x.skip.rest with
  | none => simp [hi] at h
  | some q =>
    obtain ⟨a, b, r⟩ := q
    have := integerTok_len hi
    simp [hi, numEnd] at h
    obtain ⟨_, rfl⟩ := h
    simp only [posAfter]
    omega

theorem numberP_len {x : Pos} {t : Str} {y : Pos} (h : numberP x = some (t, y)) : y.rest.length < x.rest.length := by
  have hs := skip_length x
  unfold numberP at h
  cases hi : (floatTok x.skip.rest).or (integerTok x.skip.rest) with
  | none => simp only [hi] at h; simp at h
  | some q =>
    obtain ⟨a, b, r⟩ := q
    have : r.length < x.skip.rest.length := by
      cases hf : floatTok x.skip.rest with
      | some p => rw [hf] at hi; simp at hi; subst hi; exact floatTok_len hf
      | none => rw [hf] at hi; simp at hi; exact integerTok_len hi
    simp only [hi] at h
    simp [numEnd] at h
    obtain ⟨_, rfl⟩ := h
    simp only [posAfter]
    omega

theorem startsWith_len : ∀ {s p : Str}, startsWith s p = true → p.length ≤ s.length
  | _, [], _ => by simp
  | [], c :: p, h => by simp [startsWith] at h
  | d :: s, c :: p, h => by
    have : startsWith s p = true := by
      simp only [startsWith, Bool.and_eq_true] at h
      exact h.2
    have := startsWith_len this
    simp only [List.length_cons]; omega

theorem oneOfP_len {ops : List Str} (ho : [] ∉ ops) {x : Pos} {o : Str} {y : Pos} (h : oneOfP ops x = some (o, y)) :
    y.rest.length < x.rest.length := by
  have hs := skip_length x
  unfold oneOfP at h
  cases hf : ops.find? (startsWith x.skip.rest) with
  | none => simp [hf] at h
  | some q =>
    have h1 := startsWith_len (List.find?_some hf)
    have h2 := List.mem_of_find?_eq_some hf
    have h3 : 0 < q.length := List.length_pos_iff.2 (fun e => ho (e ▸ h2))
    simp [hf] at h
    obtain ⟨_, rfl⟩ := h
    simp only [posAfter, List.length_drop]
    omega

theorem opsLoop_len {ops : List Str} (ho : [] ∉ ops) : ∀ (n : Nat) (x : Pos),
    (opsLoop ops n x).2.rest.length ≤ x.rest.length
  | 0, x => Nat.le_refl _
  | n + 1, x => by
    rw [opsLoop]
    cases h : oneOfP ops x with
    | none => exact Nat.le_refl _
    | some p => obtain ⟨o, y⟩ := p; have := oneOfP_len ho h; have := opsLoop_len ho n y; simp only; omega

/-- The bound of `opsLoop` is never reached. -/
theorem opsLoop_fuel {ops : List Str} (ho : [] ∉ ops) : ∀ (n n' : Nat) (x : Pos), x.rest.length ≤ n →
    x.rest.length ≤ n' → opsLoop ops n x = opsLoop ops n' x
  | 0, 0, x, _, _ => rfl
  | 0, n' + 1, x, h, _ => by
    rw [opsLoop, opsLoop]
    cases hk : oneOfP ops x with
    | some p => obtain ⟨w, y⟩ := p; have := oneOfP_len ho hk; omega
    | none => rfl
  | n + 1, 0, x, _, h => by
    rw [opsLoop, opsLoop]
    cases hk : oneOfP ops x with
    | some p => obtain ⟨w, y⟩ := p; have := oneOfP_len ho hk; omega
    | none => rfl
  | n + 1, n' + 1, x, h, h' => by
    rw [opsLoop, opsLoop]
    cases hk : oneOfP ops x with
    | some p =>
      obtain ⟨w, y⟩ := p
      have := oneOfP_len ho hk
      simp only [opsLoop_fuel ho n n' y (by omega) (by omega)]
    | none => rfl

/-- A parser that reads text. -/
def Sh {α : Type} (p : PP α) : Prop := ∀ x a y, p x = some (a, y) → y.rest.length < x.rest.length

/-- Two parsers agree where fewer than `n` characters are left. -/
def Agree {α : Type} (p p' : PP α) (n : Nat) : Prop := ∀ x, x.rest.length < n → p x = p' x

theorem Agree.mono {α : Type} {p p' : PP α} {n m : Nat} (h : Agree p p' n) (hm : m ≤ n) : Agree p p' m :=
  fun x hx => h x (by omega)

theorem commaLoop_len {α : Type} {p : PP α} (hp : Sh p) : ∀ (n : Nat) (x : Pos),
    (commaLoop p n x).2.rest.length ≤ x.rest.length
  | 0, x => Nat.le_refl _
  | n + 1, x => by
    rw [commaLoop]
    cases hl : lit ',' x with
    | none => exact Nat.le_refl _
    | some y =>
      have := lit_len hl
      cases h : p y with
      | none => simp only [h]; exact Nat.le_refl _
      | some q => obtain ⟨a, z⟩ := q; have := hp _ _ _ h; have := commaLoop_len hp n z; simp only [h]; omega

/-- The bound of `commaLoop` is never reached, and the loop depends on its parser only after a comma. -/
theorem commaLoop_fuel {α : Type} {p p' : PP α} (hp : Sh p) : ∀ (n n' : Nat) (x : Pos), x.rest.length ≤ n →
    x.rest.length ≤ n' → Agree p p' x.rest.length → commaLoop p n x = commaLoop p' n' x
  | 0, 0, x, _, _, _ => rfl
  | 0, n' + 1, x, h, _, _ => by
    rw [commaLoop, commaLoop]
    cases hl : lit ',' x with
    | none => rfl
    | some y => have := lit_len hl; omega
  | n + 1, 0, x, _, h, _ => by
    rw [commaLoop, commaLoop]
    cases hl : lit ',' x with
    | none => rfl
    | some y => have := lit_len hl; omega
  | n + 1, n' + 1, x, h, h', ha => by
    rw [commaLoop, commaLoop]
    cases hl : lit ',' x with
    | none => rfl
    | some y =>
      have h1 := lit_len hl
      simp only
      rw [← ha y h1]
      cases hy : p y with
      | none => rfl
      | some q =>
        obtain ⟨a, z⟩ := q
        have h2 := hp _ _ _ hy
        simp only [commaLoop_fuel hp n n' z (by omega) (by omega) (ha.mono (by omega))]

theorem delimited_len {α : Type} {p : PP α} (hp : Sh p) : Sh (delimited p) := by
  intro x a y h
  unfold delimited at h
  cases hy : p x with
  | none => simp [hy] at h
  | some q =>
    obtain ⟨b, z⟩ := q
    have h1 := hp _ _ _ hy
    have h2 := commaLoop_len hp z.rest.length z
    simp only [hy, Option.some.injEq, Prod.mk.injEq] at h
    obtain ⟨_, rfl⟩ := h
    omega

theorem delimited_congr {α : Type} {p p' : PP α} (hp : Sh p) {x : Pos} (ha : Agree p p' (x.rest.length + 1)) :
    delimited p x = delimited p' x := by
  unfold delimited
  rw [← ha x (by omega)]
  cases hy : p x with
  | none => rfl
  | some q =>
    obtain ⟨b, z⟩ := q
    have h1 := hp _ _ _ hy
    simp only [commaLoop_fuel hp z.rest.length z.rest.length z (Nat.le_refl _) (Nat.le_refl _) (ha.mono (by omega))]

theorem optList_len {α : Type} {p : PP (List α)} (hp : Sh p) (y : Pos) :
    ((p y).getD ([], y)).2.rest.length ≤ y.rest.length := by
  cases h : p y with
  | none => simp
  | some q => obtain ⟨a, z⟩ := q; have := hp _ _ _ h; simp; omega

theorem callP_len {rec : PP Str} (hr : Sh rec) : Sh (callP rec) := by
  intro x a y h
  unfold callP at h
  cases hl : lit '(' x with
  | none => simp [hl] at h
  | some z =>
    have h1 := lit_len hl
    have h2 := optList_len (delimited_len hr) z
    simp only [hl] at h
    cases hc : lit ')' ((delimited rec z).getD ([], z)).2 with
    | none => simp [hc] at h
    | some u =>
      have h3 := lit_len hc
      simp [hc] at h
      obtain ⟨_, rfl⟩ := h
      omega

theorem callP_congr {rec rec' : PP Str} (hr : Sh rec) {x : Pos} (ha : Agree rec rec' x.rest.length) :
    callP rec x = callP rec' x := by
  unfold callP
  cases hl : lit '(' x with
  | none => rfl
  | some z =>
    have h1 := lit_len hl
    simp only [delimited_congr hr (x := z) (ha.mono (by omega))]

theorem indexLoop_len {rec : PP Str} (hr : Sh rec) : ∀ (n : Nat) (x : Pos),
    (indexLoop rec n x).2.rest.length ≤ x.rest.length
  | 0, x => Nat.le_refl _
  | n + 1, x => by
    rw [indexLoop]
    cases hl : lit '[' x with
    | none => exact Nat.le_refl _
    | some y =>
      have h1 := lit_len hl
      simp only [Option.bind_some]
      cases hy : rec y with
      | none => exact Nat.le_refl _
      | some q =>
        obtain ⟨e, z⟩ := q
        have h2 := hr _ _ _ hy
        simp only
        cases hc : lit ']' z with
        | none => simp only [hc]; exact Nat.le_refl _
        | some u => have := lit_len hc; have := indexLoop_len hr n u; simp only [hc]; omega

/-- The bound of `indexLoop` is never reached. -/
theorem indexLoop_fuel {rec rec' : PP Str} (hr : Sh rec) : ∀ (n n' : Nat) (x : Pos), x.rest.length ≤ n →
    x.rest.length ≤ n' → Agree rec rec' x.rest.length → indexLoop rec n x = indexLoop rec' n' x
  | 0, 0, x, _, _, _ => rfl
  | 0, n' + 1, x, h, _, _ => by
    rw [indexLoop, indexLoop]
    cases hl : lit '[' x with
    | none => rfl
    | some y => have := lit_len hl; omega
  | n + 1, 0, x, _, h, _ => by
    rw [indexLoop, indexLoop]
    cases hl : lit '[' x with
    | none => rfl
    | some y => have := lit_len hl; omega
  | n + 1, n' + 1, x, h, h', ha => by
    rw [indexLoop, indexLoop]
    cases hl : lit '[' x with
    | none => rfl
    | some y =>
      have h1 := lit_len hl
      simp only [Option.bind_some]
      rw [← ha y h1]
      cases hy : rec y with
      | none => rfl
      | some q =>
        obtain ⟨e, z⟩ := q
        have h2 := hr _ _ _ hy
        simp only
        cases hc : lit ']' z with
        | none => simp only [hc]
        | some u =>
          have := lit_len hc
          simp only [hc, indexLoop_fuel hr n n' u (by omega) (by omega) (ha.mono (by omega))]

theorem coreP_len {cfg : Cfg} {rec : PP Str} (hr : Sh rec) : Sh (coreP cfg rec) := by
  intro x a y h
  unfold coreP at h
  cases hi : identP cfg x with
  | some p =>
    obtain ⟨i, z⟩ := p
    have h1 := identP_len hi
    simp only [hi] at h
    cases hc : callP rec z with
    | some q =>
      obtain ⟨ts, u⟩ := q
      have h2 := callP_len hr _ _ _ hc
      simp only [hc, Option.some.injEq, Prod.mk.injEq] at h
      obtain ⟨_, rfl⟩ := h
      omega
    | none =>
      have h2 := indexLoop_len hr z.rest.length z
      simp only [hc, Option.some.injEq, Prod.mk.injEq] at h
      obtain ⟨_, rfl⟩ := h
      omega
  | none =>
    simp only [hi] at h
    cases hn : numberP x with
    | some p =>
      obtain ⟨t, z⟩ := p
      simp only [hn, Option.some.injEq, Prod.mk.injEq] at h
      obtain ⟨_, rfl⟩ := h
      exact numberP_len hn
    | none =>
      simp only [hn] at h
      cases hq : quotedTok x with
      | some p =>
        obtain ⟨t, z⟩ := p
        simp only [hq, Option.some.injEq, Prod.mk.injEq] at h
        obtain ⟨_, rfl⟩ := h
        exact quotedTok_len hq
      | none =>
        simp only [hq] at h
        cases hl : lit '(' x with
        | none => simp [hl] at h
        | some z =>
          have h1 := lit_len hl
          simp only [hl, Option.bind_some] at h
          cases hy : rec z with
          | none => simp [hy] at h
          | some q =>
            obtain ⟨e, u⟩ := q
            have h2 := hr _ _ _ hy
            simp only [hy] at h
            cases hc : lit ')' u with
            | none => simp [hc] at h
            | some v =>
              have h3 := lit_len hc
              simp [hc] at h
              obtain ⟨_, rfl⟩ := h
              omega

theorem coreP_congr {cfg : Cfg} {rec rec' : PP Str} (hr : Sh rec) {x : Pos} (ha : Agree rec rec' x.rest.length) :
    coreP cfg rec x = coreP cfg rec' x := by
  unfold coreP
  cases hi : identP cfg x with
  | some p =>
    obtain ⟨i, z⟩ := p
    have h1 := identP_len hi
    simp only
    rw [callP_congr hr (ha.mono (by omega)), indexLoop_fuel hr z.rest.length z.rest.length z (Nat.le_refl _)
      (Nat.le_refl _) (ha.mono (by omega))]
  | none =>
    simp only
    cases hl : lit '(' x with
    | none => simp
    | some z => simp only [Option.bind_some, ha z (lit_len hl)]

theorem castP_len {cfg : Cfg} (x : Pos) : (castP cfg x).rest.length ≤ x.rest.length := by
  unfold castP
  cases hl : lit '(' x with
  | none => simp
  | some z =>
    have h1 := lit_len hl
    simp only [Option.bind_some]
    cases hi : identP cfg z with
    | none => simp
    | some p =>
      obtain ⟨i, u⟩ := p
      have h2 := identP_len hi
      simp only
      cases hc : lit ')' u with
      | none => simp
      | some v => have := lit_len hc; simp; omega

theorem right_ops : [] ∉ rightOps := by decide
theorem left_ops : [] ∉ leftOps := by decide
theorem bi_ops : [] ∉ biOps := by decide

theorem atomEnd_len {cfg : Cfg} {rec : PP Str} (hr : Sh rec) (ops : List Str) : Sh (atomEnd cfg rec ops) := by
  intro x a y h
  unfold atomEnd at h
  cases hc : coreP cfg rec x with
  | none => simp [hc] at h
  | some q =>
    obtain ⟨ts, z⟩ := q
    have h1 := coreP_len hr _ _ _ hc
    have h2 := opsLoop_len right_ops z.rest.length z
    simp only [hc, Option.some.injEq, Prod.mk.injEq] at h
    obtain ⟨_, rfl⟩ := h
    omega

theorem atomP_len {cfg : Cfg} {rec : PP Str} (hr : Sh rec) : Sh (atomP cfg rec) := by
  intro x a y h
  unfold atomP at h
  simp only at h
  have h1 := opsLoop_len left_ops x.rest.length x
  have h2 := castP_len (cfg := cfg) (opsLoop leftOps x.rest.length x).2
  cases hc : atomEnd cfg rec (opsLoop leftOps x.rest.length x).1 (castP cfg (opsLoop leftOps x.rest.length x).2) with
  | some q =>
    rw [hc] at h
    simp at h
    subst h
    have := atomEnd_len hr _ _ _ _ hc
    omega
  | none =>
    rw [hc] at h
    simp at h
    have := atomEnd_len hr _ _ _ _ h
    omega

theorem atomEnd_congr {cfg : Cfg} {rec rec' : PP Str} (hr : Sh rec) (ops : List Str) {x : Pos}
    (ha : Agree rec rec' x.rest.length) : atomEnd cfg rec ops x = atomEnd cfg rec' ops x := by
  unfold atomEnd
  rw [coreP_congr hr ha]

theorem atomP_congr {cfg : Cfg} {rec rec' : PP Str} (hr : Sh rec) {x : Pos}
    (ha : Agree rec rec' x.rest.length) : atomP cfg rec x = atomP cfg rec' x := by
  unfold atomP
  have h1 := opsLoop_len left_ops x.rest.length x
  have h2 := castP_len (cfg := cfg) (opsLoop leftOps x.rest.length x).2
  simp only
  rw [atomEnd_congr hr _ (ha.mono (by omega)), atomEnd_congr hr _ (ha.mono (by omega))]

theorem biLoop_len {cfg : Cfg} {rec : PP Str} (hr : Sh rec) : ∀ (n : Nat) (x : Pos),
    (biLoop cfg rec n x).2.rest.length ≤ x.rest.length
  | 0, x => Nat.le_refl _
  | n + 1, x => by
    rw [biLoop]
    cases ho : oneOfP biOps x with
    | none => exact Nat.le_refl _
    | some q =>
      obtain ⟨o, y⟩ := q
      have h1 := oneOfP_len bi_ops ho
      simp only
      cases hy : atomP cfg rec y with
      | none => simp only [hy]; exact Nat.le_refl _
      | some q =>
        obtain ⟨ts, z⟩ := q
        have := atomP_len hr _ _ _ hy
        have := biLoop_len (cfg := cfg) hr n z
        simp only [hy]; omega

/-- The bound of `biLoop` is never reached. -/
theorem biLoop_fuel {cfg : Cfg} {rec rec' : PP Str} (hr : Sh rec) : ∀ (n n' : Nat) (x : Pos), x.rest.length ≤ n →
    x.rest.length ≤ n' → Agree rec rec' x.rest.length → biLoop cfg rec n x = biLoop cfg rec' n' x
  | 0, 0, x, _, _, _ => rfl
  | 0, n' + 1, x, h, _, _ => by
    rw [biLoop, biLoop]
    cases ho : oneOfP biOps x with
    | none => rfl
    | some q => obtain ⟨o, y⟩ := q; have := oneOfP_len bi_ops ho; omega
  | n + 1, 0, x, _, h, _ => by
    rw [biLoop, biLoop]
    cases ho : oneOfP biOps x with
    | none => rfl
    | some q => obtain ⟨o, y⟩ := q; have := oneOfP_len bi_ops ho; omega
  | n + 1, n' + 1, x, h, h', ha => by
    rw [biLoop, biLoop]
    cases ho : oneOfP biOps x with
    | none => rfl
    | some q =>
      obtain ⟨o, y⟩ := q
      have h1 := oneOfP_len bi_ops ho
      simp only
      rw [← atomP_congr hr (ha.mono (by omega))]
      cases hy : atomP cfg rec y with
      | none => rfl
      | some q =>
        obtain ⟨ts, z⟩ := q
        have h2 := atomP_len hr _ _ _ hy
        simp only [biLoop_fuel (cfg := cfg) hr n n' z (by omega) (by omega) (ha.mono (by omega))]

/-- One level of `exprN`. -/
def exprStep (cfg : Cfg) (rec : PP Str) : PP Str := fun x =>
  match atomP cfg rec x with
  | none => none
  | some (ts, y) =>
    let r := biLoop cfg rec y.rest.length y
    some (joinC ' ' (ts ++ r.1), r.2)

theorem exprN_step (cfg : Cfg) (n : Nat) : exprN cfg (n + 1) = exprStep cfg (exprN cfg n) := rfl

theorem exprStep_len {cfg : Cfg} {rec : PP Str} (hr : Sh rec) : Sh (exprStep cfg rec) := by
  intro x a y h
  unfold exprStep at h
  cases hc : atomP cfg rec x with
  | none => simp [hc] at h
  | some q =>
    obtain ⟨ts, z⟩ := q
    have h1 := atomP_len hr _ _ _ hc
    have h2 := biLoop_len (cfg := cfg) hr z.rest.length z
    simp only [hc, Option.some.injEq, Prod.mk.injEq] at h
    obtain ⟨_, rfl⟩ := h
    omega

theorem exprStep_congr {cfg : Cfg} {rec rec' : PP Str} (hr : Sh rec) {x : Pos}
    (ha : Agree rec rec' x.rest.length) : exprStep cfg rec x = exprStep cfg rec' x := by
  unfold exprStep
  rw [← atomP_congr hr ha]
  cases hc : atomP cfg rec x with
  | none => rfl
  | some q =>
    obtain ⟨ts, z⟩ := q
    have h1 := atomP_len hr _ _ _ hc
    simp only [biLoop_fuel (cfg := cfg) hr z.rest.length z.rest.length z (Nat.le_refl _) (Nat.le_refl _)
      (ha.mono (by omega))]

theorem exprN_len (cfg : Cfg) : ∀ n, Sh (exprN cfg n)
  | 0 => fun x a y h => by
    have e : exprN cfg 0 x = none := rfl
    rw [e] at h; cases h
  | n + 1 => by rw [exprN_step]; exact exprStep_len (exprN_len cfg n)

/-- The bound of `exprN` is never reached. -/
theorem exprN_fuel (cfg : Cfg) : ∀ (n n' : Nat) (x : Pos), x.rest.length < n → x.rest.length < n' →
    exprN cfg n x = exprN cfg n' x
  | 0, _, x, h, _ => by omega
  | n + 1, 0, x, _, h => by omega
  | n + 1, n' + 1, x, h, h' => by
    rw [exprN_step, exprN_step]
    exact exprStep_congr (exprN_len cfg n) (fun y hy => exprN_fuel cfg n n' y (by omega) (by omega))

theorem exprP_len (cfg : Cfg) : Sh (exprP cfg) := by
  intro x a y h
  rw [exprP] at h
  exact exprN_len cfg (x.rest.length + 1) _ _ _ h

end Pyclib
