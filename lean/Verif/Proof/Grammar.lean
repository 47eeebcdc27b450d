import Verif.Spec.Grammar
import Verif.Proof.Text
/-
Proof that the parser reads every text laid out from the tokens of a C declaration as that declaration:
terminals and loops.
-/
namespace Pyclib

open Spec

/-- The position after the token `t`. -/
def adv (x : Pos) (t : Tk) : Pos := posAfter t.w (x.skip.rest.drop t.w.length)

/-- The position after the tokens. -/
def advs (x : Pos) : List Tk → Pos
  | [] => x
  | t :: ts => advs (adv x t) ts

theorem advs_append (x : Pos) (a b : List Tk) : advs x (a ++ b) = advs (advs x a) b := by
  induction a generalizing x with
  | nil => rfl
  | cons t a ih => exact ih _

/-- The text from `x` on consists of the tokens and of `doc`. -/
def At (doc : Doc) (x : Pos) (ts : List Tk) : Prop := Lay doc x.prev x.rest ts

theorem isWhite_cases {c : Char} (h : isWhite c = true) : c = ' ' ∨ c = '\n' ∨ c = '\t' ∨ c = '\r' := by
  simpa [isWhite, or_assoc] using h

theorem isIdC_white {c : Char} (h : isWhite c = true) : isIdC c = false := by
  rcases isWhite_cases h with h | h | h | h <;> subst h <;> decide

theorem apart_white (a : Char) {c : Char} (h : isWhite c = true) : apart a c = true := by
  rcases isWhite_cases h with h | h | h | h <;> subst h <;> simp [apart, pairOps, isIdC, isWordC] <;> decide

theorem skipWs_white : ∀ (ws : Str) (p c : Char) (s : Str), ws.all isWhite = true → isWhite c = false →
    skipWs p (ws ++ c :: s) = ⟨ws.getLastD p, c :: s⟩
  | [], p, c, s, _, h => by simp [skipWs, h]
  | w :: ws, p, c, s, hw, h => by
    simp only [List.all_cons, Bool.and_eq_true] at hw
    simp only [List.cons_append, skipWs, hw.1, if_true]
    rw [skipWs_white ws w c s hw.2 h]
    cases ws <;> simp [List.getLastD]

/-- What is known at the start of a token. -/
structure Start (doc : Doc) (x : Pos) (t : Tk) (k : List Tk) : Prop where
  skip : x.skip = ⟨x.skip.prev, t.w ++ (adv x t).rest⟩
  ne : t.w ≠ []
  before : ∀ c, t.w.head? = some c → isIdC x.skip.prev = true → isIdC c = false
  white : ∀ c, t.w.head? = some c → isWhite c = false
  pk : ∀ u, t.w = compWord u → t.pk = doc.pack x.skip.rest.length
  next : At doc (adv x t) k
  after : k ≠ [] → ∀ c, (adv x t).rest.head? = some c → apart (t.w.getLastD ' ') c = true

theorem At.start {doc : Doc} {x : Pos} {t : Tk} {k : List Tk} (h : At doc x (t :: k)) :
    Start doc x t k := by
  obtain ⟨xp, xr⟩ := x
  unfold At at h
  simp only at h
  generalize hts : t :: k = ts at h
  cases h with
  | nil => cases hts
  | cons p ws c w text ts pk hw hc hs hpk hl =>
    cases hts
    have e : Pos.skip ⟨xp, ws ++ (c :: w) ++ text⟩ = ⟨ws.getLastD xp, c :: w ++ text⟩ := by
      simp only [Pos.skip, List.append_assoc, List.cons_append]
      exact skipWs_white ws xp c _ hw hc
    have ea : adv ⟨xp, ws ++ (c :: w) ++ text⟩ ⟨c :: w, pk⟩ =
        ⟨(c :: w).getLastD ' ', text⟩ := by
      simp only [adv, e, posAfter, List.drop_left]
    refine ⟨?_, by simp, ?_, ?_, ?_, ?_, ?_⟩
    · rw [ea, e]
    · intro d hd hp
      cases hd
      rw [e] at hp
      simp only at hp
      rcases hs with hs | hs
      · cases ws with
        | nil => exact absurd rfl hs
        | cons a ws =>
          have : (a :: ws).getLastD xp ∈ a :: ws := by
            rw [List.getLastD_cons]
            exact List.getLastD_mem_cons
          have := List.all_eq_true.1 hw _ this
          rw [isIdC_white this] at hp
          cases hp
      · cases ws with
        | nil =>
          simp only [List.getLastD] at hp
          simp only [apart, hp, Bool.true_and] at hs
          revert hs
          cases isIdC c <;> simp
        | cons a ws =>
          have : (a :: ws).getLastD xp ∈ a :: ws := by
            rw [List.getLastD_cons]
            exact List.getLastD_mem_cons
          have := List.all_eq_true.1 hw _ this
          rw [isIdC_white this] at hp
          cases hp
    · intro d hd
      cases hd
      exact hc
    · intro u hu
      rw [e]
      exact hpk u hu
    · rw [ea]
      exact hl
    · rw [ea]
      intro hk d hd
      simp only at hd
      generalize hq : (c :: w).getLastD ' ' = q at hl
      cases hl with
      | nil => exact absurd rfl hk
      | cons p' ws' c' w' text' ts' _ hw' hc' hs' _ hl' =>
        cases ws' with
        | nil =>
          simp only [List.nil_append, List.cons_append, List.head?_cons, Option.some.injEq] at hd
          subst hd
          rcases hs' with hs' | hs'
          · exact absurd rfl hs'
          · exact hs'
        | cons a ws' =>
          simp only [List.cons_append, List.head?_cons, Option.some.injEq] at hd
          subst hd
          apply apart_white
          simp only [List.all_cons, Bool.and_eq_true] at hw'
          exact hw'.1

theorem At.tail {doc : Doc} {x : Pos} {t : Tk} {k : List Tk} (h : At doc x (t :: k)) :
    At doc (adv x t) k := h.start.next

theorem At.drop {doc : Doc} : ∀ {x : Pos} (a : List Tk) {k : List Tk}, At doc x (a ++ k) →
    At doc (advs x a) k
  | _, [], _, h => h
  | _, _ :: a, _, h => At.drop a (At.tail h)

theorem lay_length {doc : Doc} {p : Char} {s : Str} {ts : List Tk} (h : Lay doc p s ts) :
    ts.length + doc.tail.length ≤ s.length := by
  induction h with
  | nil => simp
  | cons p ws c w text ts _ _ _ _ _ _ ih => simp only [List.length_append, List.length_cons]; omega

theorem At.length {doc : Doc} {x : Pos} {ts : List Tk} (h : At doc x ts) : ts.length ≤ x.rest.length := by
  have := lay_length h
  omega

theorem skipWs_length : ∀ (s : Str) (p : Char), (skipWs p s).rest.length ≤ s.length
  | [], p => by simp [skipWs]
  | c :: s, p => by
    simp only [skipWs]
    split
    · have := skipWs_length s c
      simp only [List.length_cons]
      omega
    · simp

theorem skip_length (x : Pos) : x.skip.rest.length ≤ x.rest.length := skipWs_length _ _

theorem At.adv_length {doc : Doc} {x : Pos} {t : Tk} {k : List Tk} (h : At doc x (t :: k)) :
    (adv x t).rest.length + 1 ≤ x.rest.length := by
  have h1 := h.start.skip
  have h2 := skip_length x
  have h3 := h.start.ne
  rw [h1] at h2
  simp only [List.length_append] at h2
  have : 0 < t.w.length := List.length_pos_iff.2 h3
  omega

theorem At.advs_length {doc : Doc} : ∀ {x : Pos} (a : List Tk) {k : List Tk}, At doc x (a ++ k) →
    (advs x a).rest.length + a.length ≤ x.rest.length
  | _, [], _, _ => by simp [advs]
  | x, t :: a, k, h => by
    have h1 := At.adv_length h
    have h2 := At.advs_length a (At.tail h)
    simp only [advs, List.length_cons]
    omega

/-! ### Terminals -/

/-- The first character of a token. -/
def Spec.Tk.hd (t : Tk) : Char := t.w.headD ' '

theorem Start.rest {doc : Doc} {x : Pos} {t : Tk} {k : List Tk} (h : Start doc x t k) :
    x.skip.rest = t.w ++ (adv x t).rest := by rw [h.skip]

theorem Start.cons {doc : Doc} {x : Pos} {t : Tk} {k : List Tk} (h : Start doc x t k) :
    ∃ w, t.w = t.hd :: w := by
  cases e : t.w with
  | nil => exact absurd e h.ne
  | cons c w => exact ⟨w, by simp [Spec.Tk.hd, e]⟩

theorem adv_sym {x : Pos} {t : Tk} {c : Char} (h : t.w = [c]) : adv x t = ⟨c, x.skip.rest.drop 1⟩ := by
  simp [adv, h, posAfter]

theorem lit_yes {doc : Doc} {x : Pos} {t : Tk} {k : List Tk} (h : At doc x (t :: k)) {c : Char}
    (e : t.w = [c]) : lit c x = some (adv x t) := by
  have hr := h.start.rest
  rw [e] at hr
  rw [adv_sym e] at hr ⊢
  unfold lit
  rw [hr]
  simp

theorem lit_no {doc : Doc} {x : Pos} {t : Tk} {k : List Tk} (h : At doc x (t :: k)) {c : Char}
    (e : t.hd ≠ c) : lit c x = none := by
  have hr := h.start.rest
  obtain ⟨w, hw⟩ := h.start.cons
  rw [hw] at hr
  unfold lit
  rw [hr]
  simp [e]

theorem quotedTok_no {doc : Doc} {x : Pos} {t : Tk} {k : List Tk} (h : At doc x (t :: k))
    (e : t.hd ≠ '"' ∧ t.hd ≠ '\'') : quotedTok x = none := by
  have hr := h.start.rest
  obtain ⟨w, hw⟩ := h.start.cons
  rw [hw] at hr
  unfold quotedTok
  rw [hr]
  simp [e]

theorem skipQuoted_no {doc : Doc} {x : Pos} {t : Tk} {k : List Tk} (h : At doc x (t :: k))
    (e : t.hd ≠ '"' ∧ t.hd ≠ '\'') (n : Nat) : skipQuoted n x = x := by
  cases n with
  | zero => rfl
  | succ n => simp only [skipQuoted, quotedTok_no h e]

theorem delim_yes {doc : Doc} {x : Pos} {t : Tk} {k : List Tk} (h : At doc x (t :: k)) {c : Char}
    (e : t.w = [c]) (hq : c ≠ '"' ∧ c ≠ '\'') : delim c x = some (adv x t) := by
  unfold delim
  rw [skipQuoted_no h (by simpa [Spec.Tk.hd, e] using hq)]
  exact lit_yes h e

theorem delim_no {doc : Doc} {x : Pos} {t : Tk} {k : List Tk} (h : At doc x (t :: k)) {c : Char}
    (e : t.hd ≠ c) (hq : t.hd ≠ '"' ∧ t.hd ≠ '\'') : delim c x = none := by
  unfold delim
  rw [skipQuoted_no h hq]
  exact lit_no h e

theorem takeWhile_append_stop {α : Type} (p : α → Bool) : ∀ (w s : List α), w.all p = true →
    (∀ c, s.head? = some c → p c = false) → (w ++ s).takeWhile p = w ∧ (w ++ s).dropWhile p = s
  | [], s, _, h => by
    cases s with
    | nil => simp
    | cons c s => simp [h c rfl]
  | a :: w, s, hw, h => by
    simp only [List.all_cons, Bool.and_eq_true] at hw
    have := takeWhile_append_stop p w s hw.2 h
    simp [hw.1, this]

theorem isIdC_of_word {c : Char} (h : isWordC c = true) : isIdC c = true := by simp [isIdC, h]

theorem getLastD_mem' {α : Type} : ∀ (w : List α) (d : α), w ≠ [] → w.getLastD d ∈ w
  | [], _, h => absurd rfl h
  | a :: w, d, _ => by rw [List.getLastD_cons]; exact List.getLastD_mem_cons

/-- A token that is a word is read as a whole. -/
theorem word_read {doc : Doc} {x : Pos} {t : Tk} {k : List Tk} (h : At doc x (t :: k)) (hk : k ≠ [])
    (hw : wordOk t.w = true) :
    isIdC x.skip.prev = false ∧
    (x.skip.rest.takeWhile isWordC = t.w ∧ x.skip.rest.dropWhile isWordC = (adv x t).rest) ∧
    (x.skip.rest.takeWhile isIdC = t.w ∧ x.skip.rest.dropWhile isIdC = (adv x t).rest) := by
  have hs := h.start
  simp only [wordOk, Bool.and_eq_true, Bool.not_eq_true'] at hw
  have hlast : isIdC (t.w.getLastD ' ') = true :=
    isIdC_of_word (List.all_eq_true.1 hw.2 _ (getLastD_mem' _ _ hs.ne))
  have hn : ∀ c, (adv x t).rest.head? = some c → isIdC c = false := by
    intro c hc
    have := hs.after hk c hc
    simp only [apart, hlast, Bool.true_and, Bool.and_eq_true, Bool.not_eq_true', Bool.or_eq_false_iff] at this
    exact this.1.1
  have hid : t.w.all isIdC = true := by
    rw [List.all_eq_true] at hw ⊢
    intro c hc
    exact isIdC_of_word (hw.2 c hc)
  refine ⟨?_, ?_, ?_⟩
  · obtain ⟨w, e⟩ := hs.cons
    cases hp : isIdC x.skip.prev with
    | false => rfl
    | true =>
      have := hs.before t.hd (by rw [e]; rfl) hp
      rw [e] at hid
      simp only [List.all_cons, Bool.and_eq_true] at hid
      rw [hid.1] at this
      cases this
  · rw [hs.rest]
    refine takeWhile_append_stop _ _ _ hw.2 ?_
    intro c hc
    have := hn c hc
    simp only [isIdC, Bool.or_eq_false_iff] at this
    exact this.1
  · rw [hs.rest]
    exact takeWhile_append_stop _ _ _ hid hn

theorem adv_eq {doc : Doc} {x : Pos} {t : Tk} {k : List Tk} (_ : At doc x (t :: k)) :
    adv x t = posAfter t.w (adv x t).rest := rfl

theorem not_word_of_isIdC_false {c : Char} (h : isIdC c = false) : isWordC c = false := by
  simp only [isIdC, Bool.or_eq_false_iff] at h
  exact h.1

theorem kwl_word {doc : Doc} {x : Pos} {t : Tk} {k : List Tk} (h : At doc x (t :: k)) (hk : k ≠ [])
    (hw : wordOk t.w = true) (ws : List Str) :
    kwl ws x = if t.w ∈ ws then some (t.w, adv x t) else none := by
  obtain ⟨h1, ⟨h2, h3⟩, _⟩ := word_read h hk hw
  unfold kwl
  simp only [not_word_of_isIdC_false h1, h2, h3]
  rfl

/-- The token does not begin with a word character. -/
def symOk (t : Tk) : Bool := !isIdC t.hd

theorem takeWhile_sym {doc : Doc} {x : Pos} {t : Tk} {k : List Tk} (h : At doc x (t :: k))
    (hs : symOk t = true) : x.skip.rest.takeWhile isWordC = [] ∧ x.skip.rest.takeWhile isIdC = [] := by
  obtain ⟨w, e⟩ := h.start.cons
  simp only [symOk, Bool.not_eq_true'] at hs
  rw [h.start.rest, e]
  simp [hs, not_word_of_isIdC_false hs]

theorem kwl_sym {doc : Doc} {x : Pos} {t : Tk} {k : List Tk} (h : At doc x (t :: k))
    (hs : symOk t = true) (ws : List Str) (hn : [] ∉ ws) : kwl ws x = none := by
  unfold kwl
  simp only [(takeWhile_sym h hs).1, hn, if_false, ite_self]

theorem keyword_word {doc : Doc} {x : Pos} {t : Tk} {k : List Tk} (h : At doc x (t :: k)) (hk : k ≠ [])
    (hw : wordOk t.w = true) (w : Str) :
    keyword w x = if t.w = w then some (adv x t) else none := by
  obtain ⟨h1, _, h2, h3⟩ := word_read h hk hw
  unfold keyword
  simp only [h1, h2, h3, Bool.false_eq_true, if_false]
  split
  · rename_i e; subst e; rfl
  · rfl

theorem keyword_sym {doc : Doc} {x : Pos} {t : Tk} {k : List Tk} (h : At doc x (t :: k))
    (hs : symOk t = true) (w : Str) (hn : w ≠ []) : keyword w x = none := by
  unfold keyword
  simp only [(takeWhile_sym h hs).2, hn.symm, if_false, ite_self]

theorem head_rest {doc : Doc} {x : Pos} {t : Tk} {k : List Tk} (h : At doc x (t :: k)) :
    x.skip.rest.head? = some t.hd := by
  obtain ⟨w, e⟩ := h.start.cons
  rw [h.start.rest, e]
  rfl

theorem identP_word {doc : Doc} {x : Pos} {t : Tk} {k : List Tk} (h : At doc x (t :: k)) (hk : k ≠ [])
    (hw : wordOk t.w = true) (cfg : Cfg) :
    identP cfg x = if t.w ∈ keywords cfg then none else if isIdentStart t.hd then some (t.w, adv x t) else none := by
  obtain ⟨h1, ⟨h2, _⟩, h3, h4⟩ := word_read h hk hw
  unfold identP
  simp only [h1, h2, h3, h4, head_rest h, Bool.false_eq_true, if_false, Option.any_some]
  rfl

theorem isIdentStart_false {c : Char} (h : isIdC c = false) : isIdentStart c = false := by
  cases hs : isIdentStart c with
  | false => rfl
  | true =>
    exfalso
    simp only [isIdentStart, Bool.or_eq_true, decide_eq_true_eq] at hs
    simp only [isIdC, isWordC, Bool.or_eq_false_iff, decide_eq_false_iff_not, Char.isAlphanum] at h
    rcases hs with hs | hs
    · rw [hs] at h; exact absurd h.1.1.1 (by simp)
    · exact h.1.2 hs

theorem identP_sym {doc : Doc} {x : Pos} {t : Tk} {k : List Tk} (h : At doc x (t :: k))
    (hs : symOk t = true) (cfg : Cfg) : identP cfg x = none := by
  unfold identP
  simp only [symOk, Bool.not_eq_true'] at hs
  simp only [head_rest h, Option.any_some, isIdentStart_false hs, Bool.false_eq_true, if_false, ite_self]

theorem underIdent_sym {doc : Doc} {x : Pos} {t : Tk} {k : List Tk} (h : At doc x (t :: k))
    (hs : symOk t = true) (cfg : Cfg) : underIdent cfg x = none := by
  unfold underIdent
  obtain ⟨w, e⟩ := h.start.cons
  have : t.hd ≠ '_' := by
    intro e'
    rw [symOk, e'] at hs
    revert hs
    decide
  simp only [h.start.rest, e, List.cons_append, startsWith, this, decide_false, Bool.false_and,
    Bool.false_eq_true, if_false, ite_self]

theorem startsWith_append_word : ∀ (w s p : Str), startsWith (w ++ s) p = true → p.length ≤ w.length →
    startsWith w p = true
  | _, _, [], _, _ => by simp [startsWith]
  | [], _, _ :: _, _, h => by simp at h
  | c :: w, s, d :: p, h, hl => by
    simp only [List.cons_append, startsWith, Bool.and_eq_true, decide_eq_true_eq] at h ⊢
    exact ⟨h.1, startsWith_append_word w s p h.2 (by simpa using hl)⟩

theorem startsWith_append_short : ∀ (w s p : Str), startsWith (w ++ s) p = true → w.length < p.length →
    ∃ c, s.head? = some c ∧ c ∈ p
  | _, _, [], _, h => by simp at h
  | [], [], _ :: _, h, _ => by simp [startsWith] at h
  | [], c :: s, d :: p, h, _ => by
    simp only [List.nil_append, startsWith, Bool.and_eq_true, decide_eq_true_eq] at h
    exact ⟨c, rfl, by simp [h.1]⟩
  | c :: w, s, d :: p, h, hl => by
    simp only [List.cons_append, startsWith, Bool.and_eq_true, decide_eq_true_eq] at h
    obtain ⟨e, h1, h2⟩ := startsWith_append_short w s p h.2 (by simpa using hl)
    exact ⟨e, h1, List.mem_cons_of_mem _ h2⟩

theorem after_word {doc : Doc} {x : Pos} {t : Tk} {k : List Tk} (h : At doc x (t :: k)) (hk : k ≠ [])
    (hw : wordOk t.w = true) (c : Char) (hc : (adv x t).rest.head? = some c) : isIdC c = false ∧ c ≠ '.' := by
  have hs := h.start
  simp only [wordOk, Bool.and_eq_true, Bool.not_eq_true'] at hw
  have hlast : isIdC (t.w.getLastD ' ') = true :=
    isIdC_of_word (List.all_eq_true.1 hw.2 _ (getLastD_mem' _ _ hs.ne))
  have := hs.after hk c hc
  simp only [apart, hlast, Bool.true_and, Bool.and_eq_true, Bool.not_eq_true', Bool.or_eq_false_iff,
    decide_eq_false_iff_not] at this
  exact this.1

theorem underIdent_word {doc : Doc} {x : Pos} {t : Tk} {k : List Tk} (h : At doc x (t :: k)) (hk : k ≠ [])
    (hw : wordOk t.w = true) (cfg : Cfg) (hu : t.w ∈ keywords cfg ∨ startsWith t.w c%"__" = false) :
    underIdent cfg x = none := by
  obtain ⟨h1, ⟨h2, _⟩, _⟩ := word_read h hk hw
  unfold underIdent
  simp only [h1, h2, Bool.false_eq_true, if_false]
  rcases hu with hu | hu
  · simp only [hu, if_true]
  · split
    · rfl
    · rw [if_neg]
      intro hst
      rw [h.start.rest] at hst
      by_cases hl : (c%"__").length ≤ t.w.length
      · rw [startsWith_append_word _ _ _ hst hl] at hu
        cases hu
      · obtain ⟨c, hc, hm⟩ := startsWith_append_short _ _ _ hst (by omega)
        have := (after_word h hk hw c hc).1
        have e : c = '_' := by simpa using hm
        subst e
        revert this
        decide

/-! ### Words of the language -/

theorem gramOk_extra {g : Gram} (hg : gramOk g = true) {e : Str} (he : e ∈ g.cfg.extraTypes) :
    wordOk e = true ∧ e ∉ [c%"struct", c%"enum", c%"union", c%"__stdcall", c%"__cdecl"] ++ qualWords ++ reserved := by
  simp only [gramOk, Bool.and_eq_true, List.all_eq_true, decide_eq_true_eq] at hg
  exact hg.1 e he

theorem gramOk_mod {g : Gram} (hg : gramOk g = true) {m : Str} (hm : m ∈ g.mods) :
    wordOk m = true ∧ m ∉ keywords g.cfg := by
  simp only [gramOk, Bool.and_eq_true, List.all_eq_true, decide_eq_true_eq] at hg
  exact hg.2 m hm

/-- The words of the language that are always there, with the types of every configuration. -/
def fixedWords : List Str :=
  [c%"struct", c%"enum", c%"union", c%"__stdcall", c%"__cdecl"] ++ qualWords ++ nonnumTypes ++
    numTypes ⟨true, true, []⟩ ++ sizeModifiers ++ signModifiers

theorem numTypes_fixed {cfg : Cfg} {w : Str} (h : w ∈ numTypes cfg) : w ∈ numTypes ⟨true, true, []⟩ := by
  simp only [numTypes, List.mem_append] at h
  rcases h with (((h | h) | h) | h) | h
  · simp only [numTypes, List.mem_append]; simp only [h, true_or]
  · simp only [numTypes, List.mem_append]; simp only [h, true_or, or_true]
  · simp only [numTypes, List.mem_append]; simp only [h, true_or, or_true]
  · split at h
    · simp only [numTypes, List.mem_append, if_true]; simp only [h, true_or, or_true]
    · cases h
  · split at h
    · simp only [numTypes, List.mem_append, if_true]; simp only [h, or_true]
    · cases h

theorem keywords_cases {cfg : Cfg} {w : Str} (h : w ∈ keywords cfg) : w ∈ fixedWords ∨ w ∈ cfg.extraTypes := by
  simp only [keywords, baseTypes, fixedWords, List.mem_append] at h ⊢
  rcases h with (((h | h) | (h | h) | h) | h) | h
  · simp [h]
  · simp [h]
  · simp [h]
  · exact .inl (.inl (.inl (.inr (numTypes_fixed h))))
  · exact .inr h
  · simp [h]
  · simp [h]

theorem fixedWords_ok : ∀ w ∈ fixedWords, wordOk w = true := by decide

theorem keyword_wordOk {g : Gram} (hg : gramOk g = true) {w : Str} (h : w ∈ keywords g.cfg) : wordOk w = true := by
  rcases keywords_cases h with h | h
  · exact fixedWords_ok w h
  · exact (gramOk_extra hg h).1

theorem fund_keyword {cfg : Cfg} {w : Str} (h : w ∈ fundWords cfg) : w ∈ keywords cfg := by
  simp only [fundWords, keywords, List.mem_append] at h ⊢
  rcases h with (h | h) | h <;> simp [h]

theorem qual_keyword (cfg : Cfg) {w : Str} (h : w ∈ qualWords) : w ∈ keywords cfg := by
  simp only [keywords, List.mem_append]
  simp [h]

theorem kw_keyword (cfg : Cfg) {w : Str}
    (h : w ∈ [c%"struct", c%"enum", c%"union", c%"__stdcall", c%"__cdecl"]) : w ∈ keywords cfg := by
  simp only [keywords, List.mem_append]
  simp [h]

theorem fund_cases {cfg : Cfg} {w : Str} (h : w ∈ fundWords cfg) :
    w ∈ signModifiers ++ sizeModifiers ++ nonnumTypes ++ numTypes ⟨true, true, []⟩ ∨ w ∈ cfg.extraTypes := by
  simp only [fundWords, baseTypes, List.mem_append] at h ⊢
  rcases h with (h | h) | (h | h) | h
  · simp [h]
  · simp [h]
  · simp [h]
  · exact .inl (.inr (numTypes_fixed h))
  · exact .inr h

theorem fund_not {g : Gram} (hg : gramOk g = true) {w : Str} (h : w ∈ fundWords g.cfg) :
    w ∉ [c%"struct", c%"enum", c%"union", c%"__stdcall", c%"__cdecl"] ++ qualWords ++ reserved := by
  rcases fund_cases h with h | h
  · clear hg
    have : ∀ w ∈ signModifiers ++ sizeModifiers ++ nonnumTypes ++ numTypes ⟨true, true, []⟩,
        w ∉ [c%"struct", c%"enum", c%"union", c%"__stdcall", c%"__cdecl"] ++ qualWords ++ reserved := by decide
    exact this w h
  · exact (gramOk_extra hg h).2

theorem nil_fund {g : Gram} (hg : gramOk g = true) : [] ∉ fundWords g.cfg := by
  intro h
  have := keyword_wordOk hg (fund_keyword h)
  revert this
  decide

theorem nil_mods {g : Gram} (hg : gramOk g = true) : [] ∉ g.mods := by
  intro h
  have := (gramOk_mod hg h).1
  revert this
  decide

/-- What is known about an identifier. -/
structure IdentOk (g : Gram) (t : Tk) : Prop where
  word : wordOk t.w = true
  head : isIdentStart t.hd = true
  kw : t.w ∉ keywords g.cfg
  mods : t.w ∉ g.mods
  res : t.w ∉ reserved
  under : startsWith t.w c%"__" = false

theorem identOk_spec {g : Gram} {t : Tk} (h : identOk g t.w = true) : IdentOk g t := by
  simp only [identOk, Bool.and_eq_true, decide_eq_true_eq, Bool.not_eq_true'] at h
  obtain ⟨⟨⟨⟨⟨h1, h2⟩, h3⟩, h4⟩, h5⟩, h6⟩ := h
  refine ⟨h1, ?_, h3, h4, h5, h6⟩
  cases e : t.w with
  | nil => rw [e] at h2; simp at h2
  | cons c w => rw [e] at h2; simpa [Spec.Tk.hd, e] using h2

theorem identP_ident {g : Gram} {doc : Doc} {x : Pos} {t : Tk} {k : List Tk} (h : At doc x (t :: k))
    (hk : k ≠ []) (hi : identOk g t.w = true) : identP g.cfg x = some (t.w, adv x t) := by
  have hi := identOk_spec hi
  rw [identP_word h hk hi.word, if_neg hi.kw, if_pos hi.head]

theorem identP_kw {cfg : Cfg} {doc : Doc} {x : Pos} {t : Tk} {k : List Tk} (h : At doc x (t :: k))
    (hk : k ≠ []) (hw : wordOk t.w = true) (hi : t.w ∈ keywords cfg) : identP cfg x = none := by
  rw [identP_word h hk hw, if_pos hi]

/-- A token at which a list of qualifiers ends. -/
def Plain (g : Gram) (t : Tk) (k : List Tk) : Prop :=
  symOk t = true ∨ (wordOk t.w = true ∧ k ≠ [] ∧ t.w ∉ qualWords ∧
    (t.w ∈ keywords g.cfg ∨ startsWith t.w c%"__" = false))

theorem nil_qual : [] ∉ qualWords := by decide

theorem qualLoop_stop {g : Gram} {doc : Doc} {x : Pos} {t : Tk} {k : List Tk} (h : At doc x (t :: k))
    (hp : Plain g t k) (n : Nat) : qualLoop g.cfg n x = ([], x) := by
  cases n with
  | zero => rfl
  | succ n =>
    rcases hp with hp | ⟨h1, hk, h2, h3⟩
    · simp only [qualLoop, underIdent_sym h hp, kwl_sym h hp qualWords nil_qual]
    · simp only [qualLoop, underIdent_word h hk h1 g.cfg h3, kwl_word h hk h1, if_neg h2]

theorem qual_word {w : Str} (h : w ∈ qualWords) : wordOk w = true := by
  revert w
  decide

/-! ### Numbers -/

theorem isDigit_facts {c : Char} (h : c.isDigit = true) :
    c ≠ '+' ∧ c ≠ '-' ∧ isSpaceC c = false ∧ c ≠ '.' ∧ isUL c = false ∧ isWordC c = true := by
  have h' := h
  simp only [Char.isDigit, Bool.and_eq_true, decide_eq_true_eq] at h
  have h1 : 48 ≤ c.toNat := h.1
  have h2 : c.toNat ≤ 57 := h.2
  have key : ∀ d : Char, (d.toNat < 48 ∨ 57 < d.toNat) → c ≠ d := by
    intro d hd e
    subst e
    omega
  refine ⟨key _ (by decide), key _ (by decide), ?_, key _ (by decide), ?_, ?_⟩
  · simp only [isSpaceC, Bool.or_eq_false_iff, decide_eq_false_iff_not]
    refine ⟨⟨⟨⟨⟨⟨⟨⟨⟨key _ (by decide), key _ (by decide)⟩, key _ (by decide)⟩, key _ (by decide)⟩, ?_⟩, ?_⟩, ?_⟩, ?_⟩, ?_⟩, ?_⟩ <;> omega
  · simp only [isUL, Bool.or_eq_false_iff, decide_eq_false_iff_not]
    exact ⟨key _ (by decide), key _ (by decide)⟩
  · simp [isWordC, Char.isAlphanum, h']

theorem signTok_digit {c : Char} {s : Str} (h : c.isDigit = true) : signTok (c :: s) = ([], c :: s) := by
  obtain ⟨h1, h2, h3, _⟩ := isDigit_facts h
  unfold signTok
  split
  · rename_i e; cases e; exact absurd rfl h1
  · rename_i e; cases e; exact absurd rfl h2
  · simp [h3]

theorem head_not {p : Char → Bool} {s : Str} (h : ∀ c, s.head? = some c → p c = false) :
    s.takeWhile p = [] ∧ s.dropWhile p = s := by
  cases s with
  | nil => simp
  | cons c s => simp [h c rfl]

theorem isUL_digit {c : Char} (h : isUL c = true) : Char.isDigit c = false ∧ isHexC c = false ∧ isWordC c = true ∧
    c ≠ '.' ∧ c ≠ 'e' ∧ c ≠ 'E' ∧ c ≠ 'x' ∧ c ≠ 'X' := by
  simp only [isUL, Bool.or_eq_true, decide_eq_true_eq] at h
  rcases h with h | h <;> subst h <;> decide

theorem isHexC_word {c : Char} (h : isHexC c = true) : isWordC c = true := by
  simp only [isHexC, Bool.or_eq_true, Bool.and_eq_true, decide_eq_true_eq] at h
  simp only [isWordC, Char.isAlphanum, Char.isAlpha, Char.isUpper, Char.isLower, Bool.or_eq_true,
    Bool.and_eq_true, decide_eq_true_eq]
  rcases h with (h | h) | h
  · exact .inl (.inr h)
  · refine .inl (.inl (.inr ⟨h.1, ?_⟩))
    have : c.val ≤ 'f'.val := h.2
    exact UInt32.le_trans this (by decide)
  · refine .inl (.inl (.inl ⟨h.1, ?_⟩))
    have : c.val ≤ 'F'.val := h.2
    exact UInt32.le_trans this (by decide)

theorem intTok_word {w v : Str} (h : intTok w v) : wordOk w = true := by
  obtain ⟨suf, rfl, hs, hv⟩ := h
  have h2 : suf.all isWordC = true := by
    rw [List.all_eq_true] at hs ⊢
    intro c hc
    exact (isUL_digit (hs c hc)).2.2.1
  rcases hv with ⟨h0, h1⟩ | ⟨x, ds, rfl, hx, h0, h1⟩
  · have : v.all isWordC = true := by
      rw [List.all_eq_true] at h1 ⊢
      intro c hc
      exact (isDigit_facts (h1 c hc)).2.2.2.2.2
    simp only [wordOk, List.all_append, this, h2, Bool.and_true]
    cases v with
    | nil => exact absurd rfl h0
    | cons => rfl
  · have : ds.all isWordC = true := by
      rw [List.all_eq_true] at h1 ⊢
      intro c hc
      exact isHexC_word (h1 c hc)
    have hx' : isWordC x = true := by rcases hx with hx | hx <;> subst hx <;> decide
    simp only [wordOk, List.all_append, List.all_cons, this, h2, hx', Bool.and_true, List.cons_append,
      List.isEmpty_cons, Bool.not_false]
    decide

/-- Reading an integer constant in front of a character that cannot belong to it. -/
theorem integerTok_read {w v : Str} (h : intTok w v) (r : Str)
    (hr : ∀ c, r.head? = some c → isIdC c = false) :
    ∃ suf, w = v ++ suf ∧ integerTok (w ++ r) = some (v, suf, r) := by
  obtain ⟨suf, rfl, hs, hv⟩ := h
  refine ⟨suf, rfl, ?_⟩
  have hul : ∀ c, r.head? = some c → isUL c = false := by
    intro c hc
    have h1 := not_word_of_isIdC_false (hr c hc)
    cases e : isUL c with
    | false => rfl
    | true => rw [(isUL_digit e).2.2.1] at h1; cases h1
  have hsuf := takeWhile_append_stop isUL suf r hs hul
  have hnd : ∀ p : Char → Bool, (∀ c, isUL c = true → p c = false) → (∀ c, p c = true → isWordC c = true) →
      ∀ c, (suf ++ r).head? = some c → p c = false := by
    intro p hp hp2 c hc
    cases suf with
    | nil =>
      have h1 := not_word_of_isIdC_false (hr c hc)
      cases e : p c with
      | false => rfl
      | true => rw [hp2 c e] at h1; cases h1
    | cons a suf =>
      simp only [List.cons_append, List.head?_cons, Option.some.injEq] at hc
      subst hc
      simp only [List.all_cons, Bool.and_eq_true] at hs
      exact hp _ hs.1
  have hdig := hnd Char.isDigit (fun c hc => (isUL_digit hc).1) (fun c hc => (isDigit_facts hc).2.2.2.2.2)
  have hhex := hnd isHexC (fun c hc => (isUL_digit hc).2.1) (fun c hc => isHexC_word hc)
  rcases hv with ⟨h0, h1⟩ | ⟨x, ds, rfl, hx, h0, h1⟩
  · cases v with
    | nil => exact absurd rfl h0
    | cons d v =>
      simp only [List.all_cons, Bool.and_eq_true] at h1
      have hd := takeWhile_append_stop Char.isDigit v (suf ++ r) h1.2 hdig
      have hh : hexTok (d :: v ++ suf ++ r) = none := by
        unfold hexTok
        rw [List.append_assoc, List.cons_append, signTok_digit h1.1]
        split
        · rename_i g x h r' e
          simp only [Prod.mk.injEq, List.cons.injEq] at e
          obtain ⟨_, _, e⟩ := e
          have : (x = 'x' || x = 'X') = false := by
            have hx : x.isDigit = true ∨ isUL x = true ∨ isWordC x = false := by
              cases v with
              | cons y v =>
                simp only [List.cons_append, List.cons.injEq] at e
                rw [← e.1]
                simp only [List.all_cons, Bool.and_eq_true] at h1
                exact .inl h1.2.1
              | nil =>
                cases suf with
                | cons y suf =>
                  simp only [List.nil_append, List.cons_append, List.cons.injEq] at e
                  rw [← e.1]
                  simp only [List.all_cons, Bool.and_eq_true] at hs
                  exact .inr (.inl hs.1)
                | nil =>
                  simp only [List.nil_append] at e
                  exact .inr (.inr (not_word_of_isIdC_false (hr x (by rw [e]; rfl))))
            rcases hx with hx | hx | hx
            · have := key_digit hx
              simp [this.1, this.2]
            · have := isUL_digit hx
              simp [this.2.2.2.2.2.2.1, this.2.2.2.2.2.2.2]
            · simp only [Bool.or_eq_false_iff, decide_eq_false_iff_not]
              constructor <;> (intro e; subst e; revert hx; decide)
          rw [this]
          simp
        · rfl
      unfold integerTok
      rw [hh]
      unfold decTok
      rw [List.append_assoc, List.cons_append, signTok_digit h1.1]
      simp only [Option.none_or, h1.1, if_true, hd.1, hd.2, hsuf.1, hsuf.2, List.nil_append]
  · cases ds with
    | nil => exact absurd rfl h0
    | cons d ds =>
      simp only [List.all_cons, Bool.and_eq_true] at h1
      have hd := takeWhile_append_stop isHexC ds (suf ++ r) h1.2 hhex
      have hx' : (x = 'x' || x = 'X') = true := by simpa using hx
      have e0 : ('0' :: x :: d :: ds ++ suf ++ r) = '0' :: (x :: d :: (ds ++ (suf ++ r))) := by simp
      unfold integerTok hexTok
      rw [e0, signTok_digit (by decide)]
      simp only [hx', h1.1, Bool.and_true, if_true, hd.1, hd.2, hsuf.1, hsuf.2, List.nil_append, Option.some_or]
where
  /-- A digit is not the letter x. -/
  key_digit {c : Char} (h : c.isDigit = true) : c ≠ 'x' ∧ c ≠ 'X' := by
    constructor <;> (intro e; subst e; revert h; decide)

theorem floatTok_int {w v : Str} (h : intTok w v) (r : Str)
    (hr : ∀ c, r.head? = some c → isIdC c = false ∧ c ≠ '.') : floatTok (w ++ r) = none := by
  obtain ⟨suf, rfl, hs, hv⟩ := h
  have : ∃ d s, v ++ suf ++ r = d :: s ∧ d.isDigit = true ∧
      (∀ c, s.head? = some c → c ≠ '.' ∧ c ≠ 'e' ∧ c ≠ 'E') := by
    have hlast : ∀ c, (suf ++ r).head? = some c → c ≠ '.' ∧ c ≠ 'e' ∧ c ≠ 'E' := by
      intro c hc
      cases suf with
      | nil =>
        obtain ⟨h1, h2⟩ := hr c hc
        refine ⟨h2, ?_, ?_⟩ <;> (intro e; subst e; revert h1; decide)
      | cons a suf =>
        simp only [List.cons_append, List.head?_cons, Option.some.injEq] at hc
        subst hc
        simp only [List.all_cons, Bool.and_eq_true] at hs
        have := isUL_digit hs.1
        exact ⟨this.2.2.2.1, this.2.2.2.2.1, this.2.2.2.2.2.1⟩
    rcases hv with ⟨h0, h1⟩ | ⟨x, ds, rfl, hx, h0, h1⟩
    · cases v with
      | nil => exact absurd rfl h0
      | cons d v =>
        simp only [List.all_cons, Bool.and_eq_true] at h1
        refine ⟨d, v ++ suf ++ r, by simp, h1.1, ?_⟩
        intro c hc
        cases v with
        | nil => exact hlast c (by simpa using hc)
        | cons y v =>
          simp only [List.cons_append, List.head?_cons, Option.some.injEq] at hc
          subst hc
          simp only [List.all_cons, Bool.and_eq_true] at h1
          refine ⟨(isDigit_facts h1.2.1).2.2.2.1, ?_, ?_⟩ <;>
            (intro e; have := h1.2.1; rw [e] at this; revert this; decide)
    · refine ⟨'0', x :: ds ++ suf ++ r, by simp, by decide, ?_⟩
      intro c hc
      simp only [List.cons_append, List.head?_cons, Option.some.injEq] at hc
      subst hc
      rcases hx with hx | hx <;> subst hx <;> decide
  obtain ⟨d, s, e, hd, hs'⟩ := this
  rw [e]
  unfold floatTok
  rw [signTok_digit hd]
  have hm : mantTok (d :: s) = some (false, [d], s) := by
    unfold mantTok
    split
    · rename_i e; cases e; exact absurd hd (by decide)
    · rename_i e
      cases e
      exact absurd rfl (hs' _ rfl).1
    · rename_i e; cases e; simp [hd]
    · rename_i e; cases e
  simp only [hm]
  have he : expoTok s = none := by
    unfold expoTok
    cases s with
    | nil => rfl
    | cons c s =>
      have := hs' c rfl
      simp [this.2.1, this.2.2]
  simp [he]

theorem integerP_read {doc : Doc} {x : Pos} {t : Tk} {k : List Tk} (h : At doc x (t :: k)) (hk : k ≠ [])
    {v : Str} (hi : intTok t.w v) : integerP x = some (v, adv x t) := by
  have hr := after_word h hk (intTok_word hi)
  obtain ⟨suf, e, hv⟩ := integerTok_read hi (adv x t).rest (fun c hc => (hr c hc).1)
  unfold integerP
  rw [h.start.rest, hv]
  simp only [Option.map_some, numEnd, ← e]
  rfl

theorem numberP_read {doc : Doc} {x : Pos} {t : Tk} {k : List Tk} (h : At doc x (t :: k)) (hk : k ≠ [])
    {v : Str} (hi : intTok t.w v) : numberP x = some (v, adv x t) := by
  have hr := after_word h hk (intTok_word hi)
  have h2 := integerP_read h hk hi
  unfold integerP at h2
  unfold numberP
  rw [← h2]
  rw [h.start.rest, floatTok_int hi _ hr]
  rfl

end Pyclib
