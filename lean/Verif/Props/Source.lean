import Verif.Spec.Source
import Verif.Proof.Signed
import Verif.Props.PPExpr
import Verif.Props.Preproc
/-! Properties C17 and C30 on source text: recognition of the directives, `#ifdef` and `#ifndef`. -/
namespace Pyclib
open Spec

theorem blank_space {a : Str} (h : Blank a) : ∀ c ∈ a, isSpaceC c = true := by
  intro c hc
  rcases h c hc with rfl | rfl <;> decide

theorem dropWhile_all {p : Char → Bool} {a : Str} (h : ∀ c ∈ a, p c = true) (s : Str) :
    (a ++ s).dropWhile p = s.dropWhile p := by
  induction a with
  | nil => rfl
  | cons c a ih => simp [h c (by simp), ih (fun x hx => h x (by simp [hx]))]

theorem takeWhile_all (p : Char → Bool) (s : Str) : ∀ c ∈ s.takeWhile p, p c = true := by
  induction s with
  | nil => simp
  | cons a s ih =>
    intro c hc
    rw [List.takeWhile_cons] at hc
    split at hc
    · rcases List.mem_cons.1 hc with rfl | hc
      · assumption
      · exact ih c hc
    · cases hc

theorem lstrip_blank {a : Str} (h : Blank a) (s : Str) : lstrip (a ++ s) = lstrip s :=
  dropWhile_all (blank_space h) s

theorem lstrip_cons {c : Char} (s : Str) (h : isSpaceC c = false) : lstrip (c :: s) = c :: s := by
  simp [lstrip, h]

theorem alpha_not_space {c : Char} (h : c.isAlpha = true) : isSpaceC c = false := by
  cases hs : isSpaceC c with
  | false => rfl
  | true =>
    exfalso
    have := isSpaceC_not_word hs
    simp [isWordC, Char.isAlphanum, h] at this

/-- A directive is recognised. -/
theorem directive_match {line kw rest : Str} (h : Directive line kw rest) (hk : kw ≠ [])
    (ha : ∀ c ∈ kw, c.isAlpha = true) : directiveMatch line = some (kw, rest) := by
  obtain ⟨a, b, h1, h2, rfl, h3⟩ := h
  obtain ⟨k, ks, rfl⟩ : ∃ k ks, kw = k :: ks := by
    cases kw with
    | nil => exact (hk rfl).elim
    | cons k ks => exact ⟨k, ks, rfl⟩
  have e1 : lstrip (a ++ '#' :: (b ++ (k :: ks ++ rest))) = '#' :: (b ++ (k :: ks ++ rest)) := by
    rw [lstrip_blank h1, lstrip_cons _ (by decide)]
  have e2 : lstrip (b ++ (k :: ks ++ rest)) = k :: ks ++ rest := by
    rw [lstrip_blank h2]
    exact lstrip_cons _ (alpha_not_space (ha k (by simp)))
  have e3 := takeWhile_split (p := isAlphaC) (w := k :: ks) (r := rest) ha (by
    intro c hc
    exact h3 c (by simpa using hc))
  unfold directiveMatch
  rw [e1]
  simp only [e2, e3.1, e3.2]

theorem named_match {rest x after : Str} (h : Named rest x after) : nameMatch rest = some (x, after) := by
  obtain ⟨a, -, h1, hx, rfl, h2⟩ := h
  obtain ⟨c, r, rfl, hc, hr⟩ := hx
  have e1 : lstrip (a ++ (c :: r ++ after)) = c :: (r ++ after) := by
    rw [lstrip_blank h1]
    refine lstrip_cons _ ?_
    simp only [isIdentStart, Bool.or_eq_true, decide_eq_true_eq] at hc
    rcases hc with hc | rfl
    · exact alpha_not_space hc
    · decide
  have e3 := takeWhile_split (p := isWordC) (w := r) (r := after) hr (by
    intro c hc
    exact h2 c (by simpa using hc))
  unfold nameMatch
  rw [e1]
  simp only [hc, if_true, e3.1, e3.2]

/-- **C17.** Lines that are no conditional directives are recognised for what they are. -/
theorem C17_leaf {t : Str} {l : Line} (h : IsLeaf t l) : classify t = l := by
  cases h with
  | code h =>
    have : directiveMatch t = none := by
      unfold directiveMatch
      have e : t = t.takeWhile isSpaceC ++ lstrip t := by
        simp [lstrip, List.takeWhile_append_dropWhile]
      split
      · rename_i s hs
        exfalso
        rw [hs] at e
        obtain ⟨c, hc, hn⟩ := h _ _ e
        have := takeWhile_all isSpaceC t c hc
        simp [hn] at this
      · rfl
    simp [classify, this]
  | define rest x body h1 h2 =>
    have := directive_match h1 (by decide) (by decide)
    simp [classify, this, named_match h2]
  | undef rest x after h1 h2 =>
    have := directive_match h1 (by decide) (by decide)
    simp [classify, this, named_match h2]
  | pragma rest h1 =>
    have := directive_match h1 (by decide) (by decide)
    simp [classify, this]
  | other kw rest h1 h2 h3 h4 =>
    have := directive_match h1 h2 h3
    simp only [dirWords, List.mem_cons, not_or, List.not_mem_nil] at h4
    simp [classify, this, h4]

theorem classify_elif {t e : Str} (h : Directive t c%"elif" e) : classify t = .delif e := by
  simp [classify, directive_match h (by decide) (by decide)]

theorem classify_else {t e : Str} (h : Directive t c%"else" e) : classify t = .delse := by
  simp [classify, directive_match h (by decide) (by decide)]

theorem classify_endif {t e : Str} (h : Directive t c%"endif" e) : classify t = .dendif := by
  simp [classify, directive_match h (by decide) (by decide)]

/-! ### `#ifdef` and `#ifndef` -/

theorem skipBlank_blank {a : Str} (h : Blank a) (s : Str) : skipBlank (a ++ s) = skipBlank s := by
  unfold skipBlank
  refine dropWhile_all ?_ s
  intro c hc
  rcases h c hc with rfl | rfl <;> decide

theorem definedArg_named {rest x b : Str} (h : Named rest x b) (pre : Str) (hp : Blank pre) :
    definedArg (pre ++ rest) = some (x, b) := by
  obtain ⟨a, -, h1, hx, rfl, h2⟩ := h
  have e : identTok (pre ++ (a ++ (x ++ b))) = some (x, b) := by
    have := identTok_ident hx 0 b (by intro c hc; exact h2 c (by simpa using hc))
    unfold identTok at this ⊢
    rw [skipBlank_blank hp, skipBlank_blank h1]
    simpa [blanks] using this
  simp [definedArg, e]

theorem blank_kw {b : Str} (h : Blank b) : ∀ c ∈ b, isKwChar c = false := by
  intro c hc
  rcases h c hc with rfl | rfl <;> decide

theorem definedLoop_blank (isDef : Str → Bool) {b : Str} (h : Blank b) (n : Nat) :
    definedLoop isDef (n + b.length) false b = b := by
  by_cases hb : b = []
  · subst hb
    cases n <;> simp [definedLoop]
  · have := definedLoop_text isDef b (blank_kw h) hb n false []
    rw [List.append_nil] at this
    rw [this]
    cases n <;> simp [definedLoop]

theorem definedLoop_named (isDef : Str → Bool) {rest x b : Str} (h : Named rest x b) (hb : Blank b) (n : Nat)
    (hn : b.length < n) :
    definedLoop isDef (n + 1) false (c%"defined " ++ rest) = (if isDef x then '1' else '0') :: b := by
  have e := definedArg_named h [' '] (by intro c hc; left; simpa using hc)
  have e2 := definedLoop_blank isDef hb (n - b.length)
  rw [Nat.sub_add_cancel (Nat.le_of_lt hn)] at e2
  simp only [List.cons_append, List.nil_append] at e ⊢
  simp only [definedLoop]
  have h1 : startsWith ('d' :: 'e' :: 'f' :: 'i' :: 'n' :: 'e' :: 'd' :: ' ' :: rest) c%"defined" = true := by
    simp [startsWith]
  have h2 : isKwChar ' ' = false := by decide
  simp [h1, h2, e, e2]

theorem findTok_blank {b : Str} (h : Blank b) : findTok b = .none := by
  induction b with
  | nil => rfl
  | cons c b ih =>
    have hc := h c (by simp)
    have := ih (fun x hx => h x (by simp [hx]))
    have h1 : c ≠ '"' := by rcases hc with rfl | rfl <;> decide
    have h2 : isWordC c = false := by rcases hc with rfl | rfl <;> decide
    simp [findTok, h1, h2, this, Found.push]

theorem digit_no_macro {env : MEnv} (h : NamesOk env) (d : Char) (hd : isIdentStart d = false) (r : Str) :
    dget env.macros (d :: r) = none ∧ dget env.fnmacros (d :: r) = none := by
  have aux : ¬ IsIdent (d :: r) := by
    rintro ⟨c, q, e, hc, _⟩
    cases e
    rw [hd] at hc; cases hc
  constructor
  · cases e : dget env.macros (d :: r) with
    | none => rfl
    | some v => exact (aux (h.1 _ _ e)).elim
  · cases e : dget env.fnmacros (d :: r) with
    | none => rfl
    | some v => exact (aux (h.2 _ _ e)).elim

theorem blank_head_word {b : Str} (h : Blank b) : ∀ c ∈ b.head?, isWordC c = false := by
  intro c hc
  rcases h c (List.mem_of_mem_head? hc) with rfl | rfl <;> decide

theorem expand_digit (orc : Str → List Str → Option Str) {env : MEnv} (h : NamesOk env) (pre : Str) (d : Char)
    (hd : isIdentStart d = false) (hw : isWordC d = true) (hq : d ≠ '"') (hp : pre = [] ∨ pre = ['!'])
    {b : Str} (hb : Blank b) : expandMacros orc env (pre ++ d :: b) = pre ++ d :: b := by
  have e3 := takeWhile_split (p := isWordC) (w := []) (r := b) (by simp) (blank_head_word hb)
  simp only [List.nil_append] at e3
  have hf : findTok (d :: b) = .word [] [d] b := by
    simp [findTok, hq, hw, e3.1, e3.2]
  have hm := digit_no_macro h d hd []
  rcases hp with rfl | rfl
  · rw [List.nil_append, expand_plain orc env hf hm.1 hm.2, expand_none orc env (findTok_blank hb)]
    rfl
  · have hf2 : findTok ('!' :: d :: b) = .word ['!'] [d] b := by
      have e1 : isWordC '!' = false := by decide
      rw [findTok]
      simp only [show ('!' : Char) ≠ '"' by decide, if_false, e1, hf]
      simp [Found.push]
    rw [List.singleton_append, expand_plain orc env hf2 hm.1 hm.2, expand_none orc env (findTok_blank hb)]
    rfl

theorem blank_plain {b : Str} (h : Blank b) : ∀ c ∈ b, plainC c = true := by
  intro c hc
  rcases h c hc with rfl | rfl <;> decide

theorem rstrip_blank {b : Str} (h : Blank b) (s : Str) : rstrip (s ++ b) = rstrip s := by
  unfold rstrip
  rw [List.reverse_append, dropWhile_all]
  intro c hc
  exact blank_space h c (by simpa using hc)

theorem transform_digit (d : Char) (hd : plainC d = true) {b : Str} (hb : Blank b) (n : Nat) :
    transformLoop (n + (d :: b).length) (d :: b) = d :: b := by
  have := transform_plain (d :: b) (by
    intro c hc
    rcases List.mem_cons.1 hc with rfl | hc
    · exact hd
    · exact blank_plain hb c hc) n []
  rw [List.append_nil] at this
  rw [this]
  cases n <;> simp [transformLoop]

theorem evalPP_digit (pyo : Str → Option Bool) (v : Bool) {b : Str} (hb : Blank b) :
    evalPP pyo ((if v then '1' else '0') :: b) = .ok v := by
  have h1 : transformPP ((if v then '1' else '0') :: b) = [if v then '1' else '0'] := by
    unfold transformPP
    rw [Nat.add_comm, transform_digit _ (by cases v <;> decide) hb]
    unfold strip
    rw [lstrip_cons _ (by cases v <;> decide)]
    rw [show (if v then '1' else '0') :: b = [if v then '1' else '0'] ++ b from rfl, rstrip_blank hb]
    cases v <;> decide
  unfold evalPP
  rw [h1]
  cases v <;> rfl

theorem evalPP_not_digit (pyo : Str → Option Bool) (v : Bool) {b : Str} (hb : Blank b) :
    evalPP pyo ('!' :: (if v then '1' else '0') :: b) = .ok (!v) := by
  have h1 : transformPP ('!' :: (if v then '1' else '0') :: b) = c%"not " ++ [if v then '1' else '0'] := by
    unfold transformPP
    have : transformLoop (('!' :: (if v then '1' else '0') :: b).length + 1)
        ('!' :: (if v then '1' else '0') :: b) = c%" not " ++ (if v then '1' else '0') :: b := by
      rw [transformLoop]
      simp only [if_true]
      have := transform_digit (if v then '1' else '0') (by cases v <;> decide) hb 1
      rw [Nat.add_comm] at this
      simp only [List.length_cons] at this ⊢
      rw [this]
    rw [this]
    unfold strip
    have e : lstrip (c%" not " ++ (if v then '1' else '0') :: b) = c%"not " ++ [if v then '1' else '0'] ++ b := by
      simp [lstrip, isSpaceC]
    rw [e, rstrip_blank hb]
    cases v <;> decide
  unfold evalPP
  rw [h1]
  cases v <;> rfl

theorem isDefined_spec (env : MEnv) (x : Str) :
    isDefined env x = ((dget env.macros x).isSome || (dget env.fnmacros x).isSome) := rfl

/-- **C30.** `#ifdef X`: the condition is whether `X` is the name of a macro of either kind, whatever
the macro's body; `#ifndef X` is the opposite. -/
theorem C30_ifdef (orc : Str → List Str → Option Str) (pyo : Str → Option Bool) {env : MEnv} (hn : NamesOk env)
    {line rest x b : Str} (h : Named rest x b) (hb : Blank b) :
    (Directive line c%"ifdef" rest → ∃ r, classify line = .dif r ∧
      condE orc pyo env r = .ok ((dget env.macros x).isSome || (dget env.fnmacros x).isSome)) ∧
    (Directive line c%"ifndef" rest → ∃ r, classify line = .dif r ∧
      condE orc pyo env r = .ok (!((dget env.macros x).isSome || (dget env.fnmacros x).isSome))) := by
  have hl : b.length < rest.length := by
    obtain ⟨a, ha, _, _, rfl, _⟩ := h
    have : 0 < a.length := List.length_pos_iff.2 ha
    simp; omega
  rw [← isDefined_spec]
  constructor
  · intro hd
    refine ⟨c%"defined " ++ rest, by simp [classify, directive_match hd (by decide) (by decide)], ?_⟩
    have e1 : substDefined env (c%"defined " ++ rest) = (if isDefined env x then '1' else '0') :: b := by
      unfold substDefined
      exact definedLoop_named _ h hb _ (by simp; omega)
    unfold condE
    rw [e1]
    have e2 := expand_digit orc hn [] (if isDefined env x then '1' else '0') (by split <;> decide)
      (by split <;> decide) (by split <;> decide) (Or.inl rfl) hb
    rw [List.nil_append] at e2
    rw [e2, evalPP_digit pyo _ hb]
  · intro hd
    refine ⟨c%"!defined " ++ rest, by simp [classify, directive_match hd (by decide) (by decide)], ?_⟩
    have e1 : substDefined env (c%"!defined " ++ rest) = '!' :: (if isDefined env x then '1' else '0') :: b := by
      unfold substDefined
      have := definedLoop_nonkw (isDefined env) ((c%"!defined " ++ rest).length) false '!' (c%"defined " ++ rest)
        (by decide)
      rw [show c%"!defined " ++ rest = '!' :: (c%"defined " ++ rest) from rfl] at this ⊢
      rw [this, List.length_cons, definedLoop_named _ h hb _ (by simp; omega)]
    unfold condE
    rw [e1]
    have e2 := expand_digit orc hn ['!'] (if isDefined env x then '1' else '0') (by split <;> decide)
      (by split <;> decide) (by split <;> decide) (Or.inr rfl) hb
    rw [List.singleton_append] at e2
    rw [e2, evalPP_not_digit pyo _ hb]

/-! ### Source text -/

/-- The semantics of the code, with what C calls defined. -/
def srcSem (orc : Str → List Str → Option Str) (pyo : Str → Option Bool) : CSem MEnv :=
  { macroSem orc pyo with defd := fun env x => (dget env.macros x).isSome || (dget env.fnmacros x).isSome }

/-- Text of the condition of a recognised line. -/
def ifRest (t : Str) : Str := match classify t with | .dif r => r | _ => []

mutual
/-- The tree of recognised lines. -/
def Spec.SBlock.tree : SBlock → Block
  | .nil => .nil
  | .leaf _ l rest => .leaf l rest.tree
  | .cond t _ body chain rest => .cond (ifRest t) body.tree chain.tree rest.tree
/-- The chain of recognised lines. -/
def Spec.SChain.tree : SChain → Chain
  | .endif _ => .endif
  | .els _ body _ => .els body.tree
  | .elif _ e body tail => .elif e body.tree tail.tree
end

theorem isIf_classify {t : Str} {c : Cond} (h : IsIf t c) : classify t = .dif (ifRest t) := by
  have aux : ∀ r, classify t = .dif r → classify t = .dif (ifRest t) := by
    intro r hr; simp [ifRest, hr]
  cases h with
  | expr e h => exact aux e (by simp [classify, directive_match h (by decide) (by decide)])
  | ifdef rest x b h h1 h2 => exact aux _ (by simp [classify, directive_match h (by decide) (by decide)]; rfl)
  | ifndef rest x b h h1 h2 => exact aux _ (by simp [classify, directive_match h (by decide) (by decide)]; rfl)

theorem isLeaf_plain {t : Str} {l : Line} (h : IsLeaf t l) : Plain l := by
  cases h <;> trivial

theorem isIf_cond (orc : Str → List Str → Option Str) (pyo : Str → Option Bool) {env : MEnv} (hn : NamesOk env)
    {t : Str} {c : Cond} (h : IsIf t c) : (macroSem orc pyo).cond env (ifRest t) = c.holds (srcSem orc pyo) env := by
  cases h with
  | expr e h =>
    have : ifRest t = e := by simp [ifRest, classify, directive_match h (by decide) (by decide)]
    rw [this]; rfl
  | ifdef rest x b h h1 h2 =>
    obtain ⟨r, e1, e2⟩ := (C30_ifdef orc pyo hn (line := t) h1 h2).1 h
    have : ifRest t = r := by simp [ifRest, e1]
    rw [this]
    simp [macroSem, e2, Cond.holds, srcSem]
  | ifndef rest x b h h1 h2 =>
    obtain ⟨r, e1, e2⟩ := (C30_ifdef orc pyo hn (line := t) h1 h2).2 h
    have : ifRest t = r := by simp [ifRest, e1]
    rw [this]
    simp [macroSem, e2, Cond.holds, srcSem]

mutual
theorem sblock_lines (b : SBlock) (hb : b.Ok) : b.texts.map classify = b.tree.lines ∧ b.tree.Ok := by
  match b, hb with
  | .nil, _ => exact ⟨rfl, trivial⟩
  | .leaf t l rest, hb =>
    obtain ⟨h1, h2⟩ := sblock_lines rest hb.2
    simp only [SBlock.texts, SBlock.tree, Block.lines, Block.Ok, List.map_cons, h1, C17_leaf hb.1]
    exact ⟨trivial, isLeaf_plain hb.1, h2⟩
  | .cond t c body chain rest, hb =>
    obtain ⟨h1, h2⟩ := sblock_lines body hb.2.1
    obtain ⟨h3, h4⟩ := schain_lines chain hb.2.2.1
    obtain ⟨h5, h6⟩ := sblock_lines rest hb.2.2.2
    simp only [SBlock.texts, SBlock.tree, Block.lines, Block.Ok, List.map_cons, List.map_append, h1, h3, h5,
      isIf_classify hb.1]
    exact ⟨trivial, h2, h4, h6⟩
theorem schain_lines (c : SChain) (hc : c.Ok) : c.texts.map classify = c.tree.lines ∧ c.tree.Ok := by
  match c, hc with
  | .endif t, ⟨r, hr⟩ => simp [SChain.texts, SChain.tree, Chain.lines, Chain.Ok, classify_endif hr]
  | .els t body t', ⟨⟨r, hr⟩, hb, r', hr'⟩ =>
    obtain ⟨h1, h2⟩ := sblock_lines body hb
    simp [SChain.texts, SChain.tree, Chain.lines, Chain.Ok, classify_endif hr', classify_else hr, h1, h2]
  | .elif t e body tail, ⟨h, hb, ht⟩ =>
    obtain ⟨h1, h2⟩ := sblock_lines body hb
    obtain ⟨h3, h4⟩ := schain_lines tail ht
    simp [SChain.texts, SChain.tree, Chain.lines, Chain.Ok, classify_elif h, h1, h2, h3, h4]
end

theorem names_dset {α : Type} {d : Dict Str α} (h : ∀ k v, dget d k = some v → IsIdent k) {x : Str} (hx : IsIdent x)
    (a : α) : ∀ k v, dget (dset d x a) k = some v → IsIdent k := by
  intro k v hk
  by_cases e : k = x
  · exact e ▸ hx
  · rw [dget_dset_ne _ _ (Ne.symm e)] at hk
    exact h k v hk

/-- A selected line leaves the names of macros identifiers. -/
theorem names_line (orc : Str → List Str → Option Str) (pyo : Str → Option Bool) {env : MEnv} (hn : NamesOk env)
    {t : Str} {l : Line} (h : IsLeaf t l) : NamesOk (lineEnv (macroSem orc pyo) env l) := by
  cases h with
  | define rest x body h1 h2 =>
    obtain ⟨_, _, _, hx, _, _⟩ := h2
    simp only [lineEnv, macroSem, defineMacro]
    split
    · exact ⟨hn.1, names_dset hn.2 hx _⟩
    · split
      · exact ⟨names_dset hn.1 hx _, hn.2⟩
      · exact ⟨hn.1, names_dset hn.2 hx _⟩
  | undef rest x after h1 h2 =>
    simp only [lineEnv, macroSem, undefMacro]
    refine ⟨?_, hn.2⟩
    intro k v hk
    by_cases e : k = x
    · subst e
      obtain ⟨_, _, _, hx, _, _⟩ := h2
      exact hx
    · change dget (ddel env.macros x) k = some v at hk
      rw [dget_ddel_ne _ (Ne.symm e)] at hk
      exact hn.1 k v hk
  | _ => exact hn

section
variable {E : Type} {sem : CSem E} {P : E → Prop}

mutual
theorem sblock_run (hc : ∀ env t c, P env → IsIf t c → sem.cond env (ifRest t) = c.holds sem env)
    (hl : ∀ env t l, P env → IsLeaf t l → P (lineEnv sem.toPPSem env l)) (b : SBlock) (hb : b.Ok) :
    ∀ env : E, P env → b.tree.run sem.toPPSem env = b.run sem env ∧ P (b.run sem env).1 := by
  intro env hn
  match b, hb with
  | .nil, _ => exact ⟨rfl, hn⟩
  | .leaf t l rest, hb =>
    obtain ⟨h1, h2⟩ := sblock_run hc hl rest hb.2 _ (hl _ _ _ hn hb.1)
    refine ⟨?_, h2⟩
    simp only [SBlock.tree, Block.run, SBlock.run]
    rw [h1]
  | .cond t c body chain rest, hb =>
    obtain ⟨h1, h2⟩ := sblock_run hc hl body hb.2.1 env hn
    obtain ⟨h3, h4⟩ := schain_run hc hl chain hb.2.2.1 env hn
    have e : (if sem.cond env (ifRest t) = true then body.tree.run sem.toPPSem env
        else chain.tree.run sem.toPPSem env) =
        if c.holds sem env = true then body.run sem env else chain.run sem env := by
      rw [hc _ _ _ hn hb.1, h1, h3]
    have hr : P (if c.holds sem env = true then body.run sem env else chain.run sem env).1 := by
      split
      · exact h2
      · exact h4
    obtain ⟨h5, h6⟩ := sblock_run hc hl rest hb.2.2.2 _ hr
    simp only [SBlock.tree, Block.run, SBlock.run]
    rw [e, h5]
    exact ⟨rfl, h6⟩
theorem schain_run (hc : ∀ env t c, P env → IsIf t c → sem.cond env (ifRest t) = c.holds sem env)
    (hl : ∀ env t l, P env → IsLeaf t l → P (lineEnv sem.toPPSem env l)) (c : SChain) (hcc : c.Ok) :
    ∀ env : E, P env → c.tree.run sem.toPPSem env = c.run sem env ∧ P (c.run sem env).1 := by
  intro env hn
  match c, hcc with
  | .endif t, _ => exact ⟨rfl, hn⟩
  | .els t body t', ⟨_, hb, _⟩ => exact sblock_run hc hl body hb env hn
  | .elif t e body tail, ⟨h, hb, ht⟩ =>
    obtain ⟨h1, h2⟩ := sblock_run hc hl body hb env hn
    obtain ⟨h3, h4⟩ := schain_run hc hl tail ht env hn
    simp only [SChain.tree, Chain.run, SChain.run, h1, h3]
    refine ⟨trivial, ?_⟩
    split
    · exact h2
    · exact h4
end
end

theorem src_run (orc : Str → List Str → Option Str) (pyo : Str → Option Bool) (env : MEnv) (hn : NamesOk env)
    (b : SBlock) (hb : b.Ok) : b.tree.run (macroSem orc pyo) env = b.run (srcSem orc pyo) env ∧
      NamesOk (b.run (srcSem orc pyo) env).1 :=
  sblock_run (sem := srcSem orc pyo) (P := NamesOk) (fun _ _ _ h hi => isIf_cond orc pyo h hi)
    (fun _ _ _ h hi => names_line orc pyo h hi) b hb env hn

/-- **C17.** Source text: for every text whose lines (after joining) form well nested conditionals —
`#if`, `#ifdef`, `#ifndef`, `#elif`, `#else`, `#endif` with blanks anywhere C allows them — and every
macro table: if preprocessing ends without an exception, the text kept and the macro table are those of
the branches C selects, `#ifdef X` being true when `X` is the name of a macro and `#ifndef X` when it is
not. -/
theorem C17_source (orc : Str → List Str → Option Str) (pyo : Str → Option Bool) (env : MEnv) (hn : NamesOk env)
    (b : SBlock) (hb : b.Ok) (text out : Str) {s' : PPState MEnv}
    (ht : splitOnC '\n' (joinLines text) = b.texts)
    (h : preprocess (macroSem orc pyo) env text = .ok (s', out)) :
    s'.env = (b.run (srcSem orc pyo) env).1 ∧
      ∃ os, out = joinC '\n' (os.map Out.text) ∧ codes os = b.text (srcSem orc pyo) env := by
  obtain ⟨h1, h2⟩ := sblock_lines b hb
  have := C17_text (macroSem orc pyo) env b.tree h2 text out (by rw [ht, h1]) h
  rw [Block.text, (src_run orc pyo env hn b hb).1] at this
  exact this

/-- Names of macros stay identifiers, so the hypothesis of `C17_source` holds for the next file too. -/
theorem C17_source_names (orc : Str → List Str → Option Str) (pyo : Str → Option Bool) (env : MEnv) (hn : NamesOk env)
    (b : SBlock) (hb : b.Ok) : NamesOk (b.run (srcSem orc pyo) env).1 :=
  (src_run orc pyo env hn b hb).2

/-! ### A concrete text -/

/-- A text with an include guard and every kind of conditional line. -/
def srcDemo : SBlock :=
  .cond c%"#ifndef H" (.ifndef c%"H")
    (.leaf c%"# define H" (.define c%"H" []) <|
     .cond c%"\t#ifdef WIN " (.ifdef c%"WIN") (.leaf c%"int w;" (.code c%"int w;") .nil)
       (.elif c%"#elif defined(H)" c%" defined(H)" (.leaf c%"int h;" (.code c%"int h;") .nil)
         (.els c%"# else" (.leaf c%"int n;" (.code c%"int n;") .nil) c%"#endif")) .nil)
    (.endif c%"#endif") .nil

theorem srcDemo_ok : srcDemo.Ok := by
  refine ⟨.ifndef _ c%" H" _ [] ⟨[], [], by simp [Blank], by simp [Blank], rfl, by simp⟩
      ⟨[' '], by simp, by simp [Blank], ⟨'H', [], rfl, by decide, by simp⟩, rfl, by simp⟩ (by simp [Blank]),
    ⟨.define _ c%" H" _ [] ⟨[], [' '], by simp [Blank], by simp [Blank], rfl, by simp⟩
      ⟨[' '], by simp, by simp [Blank], ⟨'H', [], rfl, by decide, by simp⟩, rfl, by simp⟩,
      .ifdef _ c%" WIN " _ [' '] ⟨['\t'], [], by simp [Blank], by simp [Blank], rfl, by simp⟩
        ⟨[' '], by simp, by simp [Blank], ⟨'W', c%"IN", rfl, by decide, by decide⟩, rfl, by simp; decide⟩ (by simp [Blank]),
      ⟨.code _ ?_, trivial⟩,
      ⟨⟨[], [], by simp [Blank], by simp [Blank], rfl, by simp⟩, ⟨.code _ ?_, trivial⟩,
        ⟨[], [], [' '], by simp [Blank], by simp [Blank], rfl, by simp⟩, ⟨.code _ ?_, trivial⟩,
        [], [], [], by simp [Blank], by simp [Blank], rfl, by simp⟩, trivial⟩,
    ⟨[], [], [], by simp [Blank], by simp [Blank], rfl, by simp⟩, trivial⟩
  all_goals
    intro a r h
    exfalso
    have : '#' ∈ a ++ '#' :: r := by simp
    rw [← h] at this
    revert this; decide

/-- The text of the tree is selected as C selects it. -/
example : ∃ s' out, preprocess (macroSem (fun _ _ => none) (fun _ => none)) ⟨[], []⟩
      c%"#ifndef H\n# define H\n\t#ifdef WIN \nint w;\n#elif defined(H)\nint h;\n# else\nint n;\n#endif\n#endif" =
        .ok (s', out) ∧
    splitOnC '\n' (joinLines c%"#ifndef H\n# define H\n\t#ifdef WIN \nint w;\n#elif defined(H)\nint h;\n# else\nint n;\n#endif\n#endif") = srcDemo.texts ∧
    srcDemo.text (srcSem (fun _ _ => none) (fun _ => none)) ⟨[], []⟩ = [c%"int h;"] :=
  ⟨_, _, rfl, rfl, rfl⟩

end Pyclib
