import Verif.Proof.FileRun
import Verif.Proof.Grammar
/-! From the entries of a file to the layout of its tokens. -/
namespace Pyclib
open Spec

variable {E : Type}

/-! ### Layout -/

/-- As `Lay`, with white space at the end. -/
inductive LayW (pack : Nat → Option Nat) : Char → Str → List Tk → Prop
  | nil (p : Char) (t : Str) : t.all isWhite = true → LayW pack p t []
  | cons (p : Char) (ws : Str) (c : Char) (w : Str) (text : Str) (ts : List Tk) (pk : Option Nat) :
      ws.all isWhite = true → isWhite c = false → (ws ≠ [] ∨ apart p c = true) →
      (∀ u, c :: w = compWord u → pk = pack (c :: w ++ text).length) →
      LayW pack ((c :: w).getLastD ' ') text ts → LayW pack p (ws ++ (c :: w) ++ text) (⟨c :: w, pk⟩ :: ts)

theorem layW_lay {pack : Nat → Option Nat} {p : Char} {text : Str} {ts : List Tk} (h : LayW pack p text ts) :
    ∃ tail, tail.all isWhite = true ∧ Lay ⟨tail, pack⟩ p text ts := by
  induction h with
  | nil p t ht => exact ⟨t, ht, .nil (doc := ⟨t, pack⟩) p⟩
  | cons p ws c w text ts pk h1 h2 h3 h4 _ ih =>
    obtain ⟨tail, ht, hl⟩ := ih
    exact ⟨tail, ht, .cons (doc := ⟨tail, pack⟩) p ws c w text ts pk h1 h2 h3 h4 hl⟩

/-- White space in front. -/
theorem layW_white {pack : Nat → Option Nat} {R : Str} {ts : List Tk} (h : ∀ p, LayW pack p R ts) {t : Str}
    (ht : t.all isWhite = true) (p : Char) : LayW pack p (t ++ R) ts := by
  have := h p
  cases this with
  | nil _ _ h1 => exact .nil p _ (by simp [ht, h1])
  | cons _ ws c w text ts pk h1 h2 h3 h4 h5 =>
    rw [List.append_assoc, ← List.append_assoc, ← List.append_assoc]
    refine .cons p (t ++ ws) c w text ts pk (by simp [ht, h1]) h2 ?_ h4 h5
    rcases h3 with h3 | h3
    · exact .inl (by simp [h3])
    · exact .inr h3

theorem layW_newline {pack : Nat → Option Nat} {R : Str} {ts : List Tk} (h : LayW pack '\n' R ts) (p : Char) :
    LayW pack p ('\n' :: R) ts := by
  cases h with
  | nil _ _ h1 => exact .nil p _ (by simpa [isWhite] using h1)
  | cons _ ws c w text ts pk h1 h2 h3 h4 h5 =>
    rw [List.append_assoc, ← List.cons_append, ← List.append_assoc]
    exact .cons p ('\n' :: ws) c w text ts pk (by simpa [isWhite] using h1) h2 (.inl (by simp)) h4 h5

/-- The words of a line followed by the rest of the text. -/
theorem layW_words {pack : Nat → Option Nat} {pk : Option Nat} {R : Str} {ts : List Tk} (hR : ∀ p, LayW pack p R ts)
    {p : Char} {t : Str} {ws : List Str} (h : Words p t ws)
    (hpk : ∀ n, R.length < n → n ≤ (t ++ R).length → (∃ u, compWord u ∈ ws) → pack n = pk) :
    LayW pack p (t ++ R) (ws.map (⟨·, pk⟩) ++ ts) := by
  induction h with
  | nil p t ht => exact layW_white hR ht p
  | cons p t c w text ws h1 h2 h3 _ ih =>
    have e : t ++ ((c :: w) ++ text) ++ R = t ++ (c :: w) ++ (text ++ R) := by simp
    rw [e]
    refine .cons p t c w (text ++ R) _ pk h1 h2 h3 ?_ (ih ?_)
    · intro u hu
      rw [hpk (c :: w ++ (text ++ R)).length (by simp; omega) (by simp) ⟨u, by simp [hu]⟩]
    · intro n hn hn' ⟨u, hu⟩
      exact hpk n hn (by simp at hn' ⊢; omega) ⟨u, by simp [hu]⟩

theorem apart_left {a : Char} (h : isWhite a = true) (c : Char) : apart a c = true := by
  have h1 : isIdC a = false := isIdC_white h
  have h2 : ∀ o ∈ pairOps, ∀ x, o.head? = some x → isWhite x = false := by decide
  have h3 : [a, c] ∉ pairOps := fun hm => by
    have := h2 _ hm a rfl
    rw [h] at this
    cases this
  simp [apart, h1, h3]

theorem words_start {t : Str} {ws : List Str} {p q : Char} (hq : isWhite q = true) (h : Words p t ws) :
    Words q t ws := by
  cases h with
  | nil _ _ h => exact .nil _ _ h
  | cons _ t c w text ws h1 h2 h3 h4 => exact .cons q t c w text ws h1 h2 (.inr (apart_left hq c)) h4

/-- A line of the output: its text, its words, the packing of its structures. -/
structure Item where
  t : Str
  ws : List Str
  pk : Option Nat

/-- The tokens of a line. -/
def Item.toks (it : Item) : List Tk := it.ws.map (⟨·, it.pk⟩)

/-- The text of some lines. -/
def itemsText (its : List Item) : Str := joinC '\n' (its.map Item.t)

/-- What follows a line. -/
def itemsRest : List Item → Str
  | [] => []
  | it :: its => '\n' :: itemsText (it :: its)

theorem itemsText_cons (it : Item) (its : List Item) : itemsText (it :: its) = it.t ++ itemsRest its := by
  cases its with
  | nil => simp [itemsText, itemsRest, joinC]
  | cons a l => simp [itemsText, itemsRest, joinC]

/-- `pack` gives each line its packing. -/
def PkOk (pack : Nat → Option Nat) : List Item → Prop
  | [] => True
  | it :: its => (∀ n, (itemsRest its).length < n → n ≤ (itemsText (it :: its)).length →
      (∃ u, compWord u ∈ it.ws) → pack n = it.pk) ∧ PkOk pack its

theorem layW_items {pack : Nat → Option Nat} : ∀ (its : List Item) (p : Char), isWhite p = true →
    (∀ it ∈ its, Words '\n' it.t it.ws) → PkOk pack its → LayW pack p (itemsText its) (its.flatMap Item.toks)
  | [], p, _, _, _ => .nil p _ rfl
  | it :: its, p, hp, hw, hpk => by
    have hR : ∀ p, LayW pack p (itemsRest its) (its.flatMap Item.toks) := by
      intro q
      match its, hw, hpk with
      | [], _, _ => exact .nil q _ rfl
      | a :: l, hw, hpk =>
        exact layW_newline (layW_items (a :: l) '\n' rfl (fun it h => hw it (by simp [h])) hpk.2) q
    have := layW_words hR (words_start hp (hw it (by simp))) (pk := it.pk)
      (fun n h1 h2 h3 => hpk.1 n h1 (by rw [itemsText_cons]; exact h2) h3)
    rw [itemsText_cons]
    simpa [Item.toks] using this

/-- The packings recorded by line number. -/
theorem pkOk_lines {pl : List (Nat × Option Nat)} (all : List Item) (hnl : ∀ it ∈ all, '\n' ∉ it.t) :
    ∀ (its pre : List Item), all = pre ++ its →
      (∀ k it, its[k]? = some it → (∃ u, compWord u ∈ it.ws) → packingAt (pre.length + k + 1) pl = it.pk) →
      PkOk (fun n => structPacking pl (itemsText all) ((itemsText all).length - n)) its
  | [], _, _, _ => trivial
  | it :: its, pre, he, hp => by
    refine ⟨?_, pkOk_lines all hnl its (pre ++ [it]) (by simp [he]) ?_⟩
    · intro n h1 h2 h3
      have hlen : (itemsText all).length = ((pre.map Item.t).map (fun x => x.length + 1)).sum + (itemsText (it :: its)).length := by
        rw [he]
        clear he hp h1 h2 h3 hnl
        induction pre with
        | nil => simp
        | cons a pre ih =>
          rw [List.cons_append, itemsText_cons]
          have : itemsRest (pre ++ it :: its) = '\n' :: itemsText (pre ++ it :: its) := by
            cases pre <;> rfl
          rw [this]
          simp only [List.length_append, List.length_cons, ih, List.map_cons, List.sum_cons]
          omega
      have hl2 : (itemsText (it :: its)).length = it.t.length + (itemsRest its).length := by
        rw [itemsText_cons]; simp
      simp only [structPacking]
      have h4 : (itemsText all).length - n = ((pre.map Item.t).map (fun x => x.length + 1)).sum +
          ((itemsText (it :: its)).length - n) := by omega
      rw [h4]
      have h5 := linenoAt_join (pre.map Item.t) it.t (its.map Item.t) ((itemsText (it :: its)).length - n)
        (by intro x hx; obtain ⟨y, hy, rfl⟩ := List.mem_map.1 hx; exact hnl y (by simp [he, hy]))
        (hnl it (by simp [he])) (by omega)
      have h6 : joinC '\n' (pre.map Item.t ++ it.t :: its.map Item.t) = itemsText all := by
        rw [he]; simp [itemsText]
      rw [h6] at h5
      rw [h5]
      have := hp 0 it rfl h3
      simpa using this
    · intro k it' hk hc
      have := hp (k + 1) it' (by simpa using hk) hc
      rw [← this]
      congr 1
      simp; omega

/-! ### Environments -/

/-- The macro tables of the entries follow each other. -/
def EnvOk (sem : PPSem E) : E → List (Entry E) → Prop
  | _, [] => True
  | env, .sel env' l :: es => env' = env ∧ EnvOk sem (lineEnv sem env l) es
  | env, _ :: es => EnvOk sem env es

/-- The macro table at the end. -/
def endEnv (sem : PPSem E) : E → List (Entry E) → E
  | env, [] => env
  | env, .sel _ l :: es => endEnv sem (lineEnv sem env l) es
  | env, _ :: es => endEnv sem env es

theorem envOk_append {sem : PPSem E} {b : List (Entry E)} : ∀ {a : List (Entry E)} {env : E}, EnvOk sem env a →
    EnvOk sem (endEnv sem env a) b → EnvOk sem env (a ++ b) := by
  intro a
  induction a with
  | nil => exact fun _ h => h
  | cons e a ih =>
    intro env h1 h2
    cases e with
    | cond => exact ih (env := env) h1 h2
    | skip l => exact ih (env := env) h1 h2
    | sel env' l => exact ⟨h1.1, ih h1.2 h2⟩

theorem endEnv_append {sem : PPSem E} : ∀ (a b : List (Entry E)) (env : E),
    endEnv sem env (a ++ b) = endEnv sem (endEnv sem env a) b
  | [], _, _ => rfl
  | .cond :: a, b, env => endEnv_append a b env
  | .skip _ :: a, b, env => endEnv_append a b env
  | .sel _ l :: a, b, env => endEnv_append a b _

theorem endEnv_noSel {sem : PPSem E} : ∀ {a : List (Entry E)}, NoSel a → ∀ env, endEnv sem env a = env ∧ EnvOk sem env a
  | [], _, _ => ⟨rfl, trivial⟩
  | .cond :: a, h, env => endEnv_noSel (a := a) (fun e he => h e (by simp [he])) env
  | .skip _ :: a, h, env => endEnv_noSel (a := a) (fun e he => h e (by simp [he])) env
  | .sel env' l :: a, h, _ => absurd rfl (h _ (by simp) env' l)

mutual
theorem block_env (sem : PPSem E) (b : Block) : ∀ env, EnvOk sem env (b.trace sem env) ∧
    endEnv sem env (b.trace sem env) = (b.run sem env).1 := by
  intro env
  match b with
  | .nil => exact ⟨trivial, rfl⟩
  | .leaf l rest =>
    obtain ⟨h1, h2⟩ := block_env sem rest (lineEnv sem env l)
    exact ⟨⟨rfl, h1⟩, h2⟩
  | .cond c body chain rest =>
    simp only [Block.trace, Block.run, EnvOk, endEnv]
    by_cases hc : sem.cond env c = true
    · simp only [hc, if_true]
      obtain ⟨h1, h2⟩ := block_env sem body env
      obtain ⟨h3, h4⟩ := endEnv_noSel (sem := sem) (chain_noSel (E := E) chain) (body.run sem env).1
      obtain ⟨h5, h6⟩ := block_env sem rest (body.run sem env).1
      refine ⟨envOk_append h1 (by rw [h2]; exact envOk_append h4 (by rw [h3]; exact h5)), ?_⟩
      rw [endEnv_append, h2, endEnv_append, h3, h6]
    · simp only [hc, if_false, Bool.false_eq_true]
      obtain ⟨h1, h2⟩ := endEnv_noSel (sem := sem) (block_noSel (E := E) body) env
      obtain ⟨h3, h4⟩ := chain_env sem chain env
      obtain ⟨h5, h6⟩ := block_env sem rest (chain.run sem env).1
      refine ⟨envOk_append h2 (by rw [h1]; exact envOk_append h3 (by rw [h4]; exact h5)), ?_⟩
      rw [endEnv_append, h1, endEnv_append, h4, h6]
theorem chain_env (sem : PPSem E) (c : Chain) : ∀ env, EnvOk sem env (c.trace sem env) ∧
    endEnv sem env (c.trace sem env) = (c.run sem env).1 := by
  intro env
  match c with
  | .endif => exact ⟨trivial, rfl⟩
  | .els body =>
    obtain ⟨h1, h2⟩ := block_env sem body env
    simp only [Chain.trace, Chain.run, EnvOk, endEnv]
    exact ⟨envOk_append h1 trivial, by rw [endEnv_append, h2]; rfl⟩
  | .elif c body tail =>
    simp only [Chain.trace, Chain.run, EnvOk, endEnv]
    by_cases hc : sem.cond env c = true
    · simp only [hc, if_true]
      obtain ⟨h1, h2⟩ := block_env sem body env
      obtain ⟨h3, h4⟩ := endEnv_noSel (sem := sem) (chain_noSel (E := E) tail) (body.run sem env).1
      exact ⟨envOk_append h1 (by rw [h2]; exact h4), by rw [endEnv_append, h2, h3]⟩
    · simp only [hc, if_false, Bool.false_eq_true]
      obtain ⟨h1, h2⟩ := endEnv_noSel (sem := sem) (block_noSel (E := E) body) env
      obtain ⟨h3, h4⟩ := chain_env sem tail env
      exact ⟨envOk_append h2 (by rw [h1]; exact h3), by rw [endEnv_append, h1, h4]⟩
end

/-! ### The run of the line machine -/

theorem packMatch_isPack {r : Str} {op : PackOp} (h : IsPack r op) :
    ∃ txt, packMatch r = some txt ∧ op.Good ∧ op.Writes txt := by
  obtain ⟨a, b, txt, after, ha, hba, hbb, rfl, hn, hg, hw⟩ := h
  refine ⟨txt, ?_, hg, hw⟩
  match a, ha with
  | x :: a, _ =>
    have hx : isSpaceC x = true := blank_space hba x (by simp)
    have e1 : lstrip (x :: a ++ (c%"pack" ++ (b ++ '(' :: (txt ++ ')' :: after)))) =
        'p' :: 'a' :: 'c' :: 'k' :: (b ++ '(' :: (txt ++ ')' :: after)) := by
      rw [lstrip_blank hba]; rfl
    have e2 : lstrip (b ++ '(' :: (txt ++ ')' :: after)) = '(' :: (txt ++ ')' :: after) := by
      rw [lstrip_blank hbb]; rfl
    have e3 : packMatch (x :: a ++ (c%"pack" ++ (b ++ '(' :: (txt ++ ')' :: after)))) =
        (split1 ')' (txt ++ ')' :: after)).map (·.1) := by
      unfold packMatch
      simp only [List.cons_append] at e1 ⊢
      simp only [hx, if_true, e1, e2]
    rw [e3, split1_app hn]
    rfl

theorem packMatch_notPack {r : Str} (h : NotPack r) : packMatch r = none := by
  have hl : ∃ a, r = a ++ lstrip r ∧ ∀ c ∈ a, isSpaceC c = true :=
    ⟨r.takeWhile isSpaceC, (List.takeWhile_append_dropWhile).symm, fun c hc => by
      have := List.all_takeWhile (p := isSpaceC) (l := r); rw [List.all_eq_true] at this; exact this c hc⟩
  obtain ⟨a, h1, h2⟩ := hl
  unfold packMatch
  split
  · rfl
  · split
    · split
      · rename_i s hs
        rw [hs] at h1
        obtain ⟨c, hc, hc'⟩ := h a s h1
        rw [h2 c hc] at hc'
        cases hc'
      · rfl
    · rfl

/-- The state of the pragmas agrees with the documented meaning. -/
def PK (s : PPState E) (m : Msvc × Bool) : Prop :=
  s.packing = m.1.cur ∧ ∃ top, (s.packStack.map Prod.fst).reverse = top :: m.1.saved ∧ (m.2 = true → top = m.1.cur)

theorem pk_step {s : PPState E} {m m' : Msvc × Bool} {op : PackOp} (h : PackStep m op m') (hp : PK s m) (i : Nat) :
    ∃ s', Spec.packSem i s op = .ok s' ∧ PK s' m' ∧ s'.env = s.env ∧ s'.ifTrue = s.ifTrue := by
  obtain ⟨hc, top, hst, htop⟩ := hp
  cases h with
  | set m b v => exact ⟨_, rfl, ⟨rfl, top, hst, by intro h; cases h⟩, rfl, rfl⟩
  | push m id v hv =>
    refine ⟨_, rfl, ⟨?_, v, ?_, ?_⟩, rfl, rfl⟩
    · cases v with
      | none => simp [Msvc.step, hv rfl]
      | some n => rfl
    · simp only [List.map_append, List.map_cons, List.map_nil, List.reverse_append, List.reverse_cons, List.reverse_nil,
        List.nil_append, List.cons_append, Msvc.step]
      rw [hst, htop rfl]
    · intro _
      cases v with
      | none => simp [Msvc.step, hv rfl]
      | some n => rfl
  | pop m b hne =>
    match hm : m.saved, hne with
    | c :: cs, _ =>
      simp only [hm] at hst
      have hst2 : (s.packStack.dropLast.map Prod.fst).reverse = c :: cs := by
        rw [List.map_dropLast]
        have := congrArg List.tail hst
        simpa using this
      match hd : s.packStack.dropLast.getLast? with
      | none =>
        rw [List.getLast?_eq_none_iff] at hd
        rw [hd] at hst2
        simp at hst2
      | some q =>
        obtain ⟨qa, qb⟩ := q
        have hq : qa = c := by
          have h1 : (s.packStack.dropLast.map Prod.fst).getLast? = some qa := by
            rw [List.getLast?_map, hd]; rfl
          rw [← List.head?_reverse, hst2] at h1
          simpa using h1.symm
        simp only [Spec.packSem, hd]
        exact ⟨_, rfl, ⟨by simp [Msvc.step, hm, hq], c, by simpa [Msvc.step, hm] using hst2, by simp [Msvc.step, hm]⟩, rfl, rfl⟩
  | popTo m b n hne =>
    match hm : m.saved, hne with
    | c :: cs, _ =>
      simp only [hm] at hst
      have hst2 : (s.packStack.dropLast.map Prod.fst).reverse = c :: cs := by
        rw [List.map_dropLast]
        have := congrArg List.tail hst
        simpa using this
      have hn : s.packStack ≠ [] := by rintro h; rw [h] at hst; simp at hst
      simp only [Spec.packSem, hn, if_false]
      exact ⟨_, rfl, ⟨by simp [Msvc.step, hm], c, by simpa [Msvc.step, hm] using hst2, by intro h; cases h⟩, rfl, rfl⟩

/-- All conditions around the line are true. -/
def Live (s : PPState E) : Prop := s.ifTrue.all id = true ∧ s.ifTrue ≠ []

theorem live_true {s : PPState E} (h : Live s) : ∃ ts, s.ifTrue = true :: ts ∧ ts.all id = true := by
  obtain ⟨h1, h2⟩ := h
  match hs : s.ifTrue with
  | [] => exact absurd hs h2
  | b :: ts => rw [hs] at h1; simp at h1; exact ⟨ts, by simp [h1.1], by simpa using h1.2⟩

/-- A selected line that is neither text nor a pragma. -/
theorem step_quiet (sem : PPSem E) (i : Nat) (s : PPState E) (l : Line) (hs : Live s) (hp : Spec.Plain l)
    (hq : Line.isQuiet l = true) : ∃ s', ppStep sem i s l = .ok (s', some .blank) ∧ s'.env = lineEnv sem s.env l ∧
      s'.ifTrue = s.ifTrue := by
  obtain ⟨ts, h1, h2⟩ := live_true hs
  cases l with
  | code _ => cases hq
  | pragma _ => cases hq
  | define n r => exact ⟨_, by simp only [ppStep, h1, h2, if_true]; rfl, rfl, h1.symm⟩
  | undef n => exact ⟨_, by simp only [ppStep, h1]; rfl, rfl, h1.symm⟩
  | other => exact ⟨s, rfl, rfl, rfl⟩
  | _ => cases hp

theorem trRun_cons {sem : PPSem E} {i : Nat} {s s1 s2 : PPState E} {e : Entry E} {es : List (Entry E)}
    {o : Option Out} {os : List Out} (h1 : trStep sem i s e = .ok (s1, o))
    (h2 : trRun sem (i + 1) s1 es = .ok (s2, os)) : trRun sem i s (e :: es) = .ok (s2, o.toList ++ os) := by
  simp only [trRun, h1, andThen_ok, h2]

theorem selPlain_tail {e : Entry E} {es : List (Entry E)} (h : SelPlain (e :: es)) : SelPlain es :=
  fun e' he => h e' (by simp [he])

/-- The blank line. -/
def Item.blank : Item := ⟨[], [], none⟩

/-- The run of the line machine on a file without pack pragmas. -/
theorem words_run {sem : PPSem E} {es : List (Entry E)} {ws : List Str} (h : FileWords sem es ws) :
    ∀ (i : Nat) (s : PPState E), SelPlain es → EnvOk sem s.env es → Live s →
      ∃ (s' : PPState E) (os : List Out) (its : List Item), trRun sem i s es = .ok (s', os) ∧ os.map Out.text = its.map Item.t ∧
        its.flatMap Item.toks = ws.map (⟨·, none⟩) ∧ (∀ it ∈ its, Words '\n' it.t it.ws) ∧
        s'.packList = s.packList ∧ s'.env = endEnv sem s.env es := by
  induction h with
  | nil => intro i s _ _ _; exact ⟨s, [], [], rfl, rfl, rfl, by simp, rfl, rfl⟩
  | cond es ts _ ih =>
    intro i s hp he hl
    obtain ⟨s', os, its, h1, h2, h3, h4, h5, h6⟩ := ih (i + 1) s (selPlain_tail hp) he hl
    refine ⟨s', _, Item.blank :: its, trRun_cons rfl h1, by simp [h2, Item.blank, Out.text], by simp [h3, Item.toks, Item.blank], ?_, h5, h6⟩
    intro it hit
    rcases List.mem_cons.1 hit with rfl | hit
    · exact .nil _ _ rfl
    · exact h4 it hit
  | skip l es ts _ ih =>
    intro i s hp he hl
    obtain ⟨s', os, its, h1, h2, h3, h4, h5, h6⟩ := ih (i + 1) s (selPlain_tail hp) he hl
    cases ho : skipOut l with
    | none => exact ⟨s', os, its, trRun_cons (o := none) (by simp [trStep, ho]) h1, h2, h3, h4, h5, h6⟩
    | some o =>
      have : o = .blank := by cases l <;> simp [skipOut] at ho <;> exact ho.symm
      subst this
      refine ⟨s', _, Item.blank :: its, trRun_cons (o := some .blank) (by simp [trStep, ho]) h1, by simp [h2, Item.blank, Out.text], by simp [h3, Item.toks, Item.blank], ?_, h5, h6⟩
      intro it hit
      rcases List.mem_cons.1 hit with rfl | hit
      · exact .nil _ _ rfl
      · exact h4 it hit
  | code env t ws es ts hw _ ih =>
    intro i s hp he hl
    obtain ⟨he1, he2⟩ := he
    subst he1
    obtain ⟨s', os, its, h1, h2, h3, h4, h5, h6⟩ := ih (i + 1) s (selPlain_tail hp) he2 hl
    obtain ⟨tl, g1, g2⟩ := live_true hl
    refine ⟨s', _, ⟨sem.expand s.env t, ws, none⟩ :: its, trRun_cons (o := some (.code (sem.expand s.env t))) (by simp [trStep, ppStep, g1]) h1,
      by simp [h2, Out.text], by simp [h3, Item.toks], ?_, h5, h6⟩
    intro it hit
    rcases List.mem_cons.1 hit with rfl | hit
    · exact hw
    · exact h4 it hit
  | pragma env r es ts hn _ ih =>
    intro i s hp he hl
    obtain ⟨he1, he2⟩ := he
    subst he1
    obtain ⟨s', os, its, h1, h2, h3, h4, h5, h6⟩ := ih (i + 1) s (selPlain_tail hp) he2 hl
    obtain ⟨tl, g1, g2⟩ := live_true hl
    exact ⟨s', os, its, trRun_cons (o := none) (by simp only [trStep, ppStep, g1, g2, if_true, packMatch_notPack hn]) h1,
      h2, h3, h4, h5, h6⟩
  | quiet env l es ts hq _ ih =>
    intro i s hp he hl
    obtain ⟨he1, he2⟩ := he
    subst he1
    obtain ⟨s1, g1, g2, g3⟩ := step_quiet sem i s l hl (hp (.sel s.env l) (by simp) s.env l rfl) hq
    obtain ⟨s', os, its, h1, h2, h3, h4, h5, h6⟩ := ih (i + 1) s1 (selPlain_tail hp) (by rw [g2]; exact he2)
      (by unfold Live; rw [g3]; exact hl)
    have hpl : s1.packList = s.packList := by
      rcases ppStep_pack g1 with h | ⟨⟨t, h⟩, _⟩
      · exact h.1
      · subst h; cases hq
    refine ⟨s', _, Item.blank :: its, trRun_cons (o := some .blank) g1 h1, by simp [h2, Item.blank, Out.text], by simp [h3, Item.toks, Item.blank], ?_, h5.trans hpl, by rw [h6, g2]; rfl⟩
    intro it hit
    rcases List.mem_cons.1 hit with rfl | hit
    · exact .nil _ _ rfl
    · exact h4 it hit

theorem trStep_packInv {sem : PPSem E} {i : Nat} {s s' : PPState E} {e : Entry E} {o : Option Out}
    (hi : PackInv i s) (h : trStep sem i s e = .ok (s', o)) : PackInv (i + 1) s' := by
  cases e with
  | cond => cases h; exact ⟨hi.last, fun p hp => by rcases hi.lt p hp with h | h <;> omega⟩
  | skip l => cases h; exact ⟨hi.last, fun p hp => by rcases hi.lt p hp with h | h <;> omega⟩
  | sel env l => exact ppStep_packInv hi h

/-- The pack list only grows, by entries with later numbers. -/
theorem trRun_packList {sem : PPSem E} : ∀ {es : List (Entry E)} {i : Nat} {s s' : PPState E} {os : List Out},
    trRun sem i s es = .ok (s', os) → ∃ ext, s'.packList = s.packList ++ ext ∧ ∀ p ∈ ext, i ≤ p.1 ∧
      (NextPragma es = false → i + 1 ≤ p.1)
  | [], _, _, _, _, h => by cases h; exact ⟨[], by simp, by simp⟩
  | e :: es, i, s, s', os, h => by
    simp only [trRun] at h
    cases h1 : trStep sem i s e with
    | error er => simp only [h1] at h; cases h
    | ok p =>
      obtain ⟨s1, o⟩ := p
      simp only [h1, andThen_ok] at h
      cases h2 : trRun sem (i + 1) s1 es with
      | error er => simp only [h2] at h; cases h
      | ok q =>
        obtain ⟨s2, os2⟩ := q
        simp only [h2] at h
        cases h
        obtain ⟨ext, he, hx⟩ := trRun_packList h2
        have hkeep : s1.packList = s.packList → ∃ ext, s'.packList = s.packList ++ ext ∧ ∀ p ∈ ext, i ≤ p.1 ∧
            (NextPragma (e :: es) = false → i + 1 ≤ p.1) := by
          intro hh
          refine ⟨ext, by rw [he, hh], fun p hp => ?_⟩
          have := (hx p hp).1
          exact ⟨by omega, fun _ => this⟩
        cases e with
        | cond => cases h1; exact hkeep rfl
        | skip l => cases h1; exact hkeep rfl
        | sel env l =>
          rcases ppStep_pack h1 with h | ⟨⟨t, ht⟩, h⟩
          · exact hkeep h.1
          · subst ht
            refine ⟨(i, s1.packing) :: ext, by rw [he, h]; simp, fun p hp => ?_⟩
            refine ⟨?_, fun hc => by simp [NextPragma] at hc⟩
            rcases List.mem_cons.1 hp with rfl | hp
            · exact Nat.le_refl _
            · have := (hx p hp).1; omega

/-- The run of the line machine on a file with pack pragmas. -/
theorem toks_run {sem : PPSem E} {m : Msvc × Bool} {es : List (Entry E)} {ts : List Tk} (h : FileToks sem m es ts) :
    ∀ (i : Nat) (s : PPState E), SelPlain es → EnvOk sem s.env es → Live s → PK s m → PackInv i s →
      ∃ (s' : PPState E) (os : List Out) (its : List Item), trRun sem i s es = .ok (s', os) ∧ os.map Out.text = its.map Item.t ∧
        its.flatMap Item.toks = ts ∧ (∀ it ∈ its, Words '\n' it.t it.ws ∧ '\n' ∉ it.t) ∧
        (∀ k it, its[k]? = some it → (∃ u, compWord u ∈ it.ws) → packingAt (i + k + 1) s'.packList = it.pk) ∧
        s'.env = endEnv sem s.env es := by
  have shift : ∀ {i : Nat} {s' : PPState E} {it0 : Item} {its : List Item},
      (∀ k it, its[k]? = some it → (∃ u, compWord u ∈ it.ws) → packingAt (i + 1 + k + 1) s'.packList = it.pk) →
      ((∃ u, compWord u ∈ it0.ws) → packingAt (i + 1) s'.packList = it0.pk) →
      ∀ k it, (it0 :: its)[k]? = some it → (∃ u, compWord u ∈ it.ws) → packingAt (i + k + 1) s'.packList = it.pk := by
    intro i s' it0 its h1 h2 k it hk hc
    cases k with
    | zero =>
      simp only [List.getElem?_cons_zero, Option.some.injEq] at hk
      subst hk
      exact h2 hc
    | succ k =>
      have := h1 k it (by simpa using hk) hc
      rw [← this]
      congr 1
      omega
  have noComp : ∀ {i : Nat} {s' : PPState E}, (∃ u, compWord u ∈ Item.blank.ws) →
      packingAt (i + 1) s'.packList = Item.blank.pk := by
    rintro i s' ⟨u, hu⟩
    simp [Item.blank] at hu
  have mem : ∀ {its : List Item} {it0 : Item}, (Words '\n' it0.t it0.ws ∧ '\n' ∉ it0.t) →
      (∀ it ∈ its, Words '\n' it.t it.ws ∧ '\n' ∉ it.t) → ∀ it ∈ it0 :: its, Words '\n' it.t it.ws ∧ '\n' ∉ it.t := by
    intro its it0 h0 h it hit
    rcases List.mem_cons.1 hit with rfl | hit
    · exact h0
    · exact h it hit
  have blank : Words '\n' Item.blank.t Item.blank.ws ∧ '\n' ∉ Item.blank.t := ⟨.nil _ _ rfl, by simp [Item.blank]⟩
  induction h with
  | nil m => intro i s _ _ _ _ _; exact ⟨s, [], [], rfl, rfl, rfl, by simp, by simp, rfl⟩
  | cond m es ts _ ih =>
    intro i s hp he hl hk hi
    obtain ⟨s', os, its, h1, h2, h3, h4, h5, h6⟩ := ih (i + 1) s (selPlain_tail hp) he hl hk
      (trStep_packInv (e := .cond) (sem := sem) hi rfl)
    exact ⟨s', _, Item.blank :: its, trRun_cons rfl h1, by simp [h2, Item.blank, Out.text],
      by simp [h3, Item.toks, Item.blank], mem blank h4, shift h5 noComp, h6⟩
  | skip m l es ts hd hu hpr _ ih =>
    intro i s hp he hl hk hi
    obtain ⟨s', os, its, h1, h2, h3, h4, h5, h6⟩ := ih (i + 1) s (selPlain_tail hp) he hl hk
      (trStep_packInv (e := .cond) (sem := sem) hi rfl)
    have ho : skipOut l = some .blank := by
      cases l with
      | define n r => exact absurd rfl (hd n r)
      | undef n => exact absurd rfl (hu n)
      | pragma r => exact absurd rfl (hpr r)
      | _ => rfl
    exact ⟨s', _, Item.blank :: its, trRun_cons (o := some .blank) (by simp [trStep, ho]) h1,
      by simp [h2, Item.blank, Out.text], by simp [h3, Item.toks, Item.blank], mem blank h4, shift h5 noComp, h6⟩
  | code m env t ws es ts hw hnl hnp _ ih =>
    intro i s hp he hl hk hi
    obtain ⟨he1, he2⟩ := he
    subst he1
    obtain ⟨tl, g1, g2⟩ := live_true hl
    have hs : trStep sem i s (.sel s.env (.code t)) = .ok (s, some (.code (sem.expand s.env t))) := by
      simp [trStep, ppStep, g1]
    obtain ⟨s', os, its, h1, h2, h3, h4, h5, h6⟩ := ih (i + 1) s (selPlain_tail hp) he2 hl hk (trStep_packInv hi hs)
    refine ⟨s', _, ⟨sem.expand s.env t, ws, m.1.cur⟩ :: its, trRun_cons hs h1,
      by simp [h2, Out.text], by simp [h3, Item.toks], mem ⟨hw, hnl⟩ h4, shift h5 ?_, h6⟩
    rintro ⟨u, hu⟩
    obtain ⟨ext, e1, e2⟩ := trRun_packList h1
    have hnp' : NextPragma es = false := by
      cases hn : NextPragma es with
      | false => rfl
      | true =>
        obtain ⟨n1, n2⟩ := hnp hn
        cases u
        · exact absurd hu n1
        · exact absurd hu n2
    obtain ⟨l, k, hlast⟩ := hi.last
    have hlt := hi.lt
    rw [e1, hlast, hk.1]
    rw [hlast, hk.1] at hlt
    refine packingAtFrom_app (fun p hp => ?_) (fun p hp => ?_)
    · rcases hlt p hp with h | h <;> omega
    · have := (e2 p hp).2 hnp'
      omega
  | pack m m' env r op es ts hpk hst _ ih =>
    intro i s hp he hl hk hi
    obtain ⟨he1, he2⟩ := he
    subst he1
    obtain ⟨tl, g1, g2⟩ := live_true hl
    obtain ⟨txt, p1, p2, p3⟩ := packMatch_isPack hpk
    obtain ⟨s1, q1, q2, q3, q4⟩ := pk_step hst hk i
    have hs : trStep sem i s (.sel s.env (.pragma r)) = .ok (s1, some .blank) := by
      simp only [trStep, ppStep, g1, g2, if_true, p1, doPack_op i s op txt p2 p3, q1]
    obtain ⟨s', os, its, h1, h2, h3, h4, h5, h6⟩ := ih (i + 1) s1 (selPlain_tail hp) (by rw [q3]; exact he2)
      (by unfold Live; rw [q4]; exact hl) q2 (trStep_packInv hi hs)
    exact ⟨s', _, Item.blank :: its, trRun_cons hs h1, by simp [h2, Item.blank, Out.text],
      by simp [h3, Item.toks, Item.blank], mem blank h4, shift h5 noComp, by rw [h6, q3]; rfl⟩
  | quiet m env l es ts hq _ ih =>
    intro i s hp he hl hk hi
    obtain ⟨he1, he2⟩ := he
    subst he1
    obtain ⟨s1, g1, g2, g3⟩ := step_quiet sem i s l hl (hp (.sel s.env l) (by simp) s.env l rfl) hq
    have hpl : s1.packing = s.packing ∧ s1.packStack = s.packStack := by
      rcases ppStep_pack g1 with h | ⟨⟨t, h⟩, _⟩
      · exact h.2
      · subst h; cases hq
    obtain ⟨s', os, its, h1, h2, h3, h4, h5, h6⟩ := ih (i + 1) s1 (selPlain_tail hp) (by rw [g2]; exact he2)
      (by unfold Live; rw [g3]; exact hl) (by unfold PK; rw [hpl.1, hpl.2]; exact hk) (ppStep_packInv hi g1)
    exact ⟨s', _, Item.blank :: its, trRun_cons (o := some .blank) g1 h1, by simp [h2, Item.blank, Out.text],
      by simp [h3, Item.toks, Item.blank], mem blank h4, shift h5 noComp, by rw [h6, g2]; rfl⟩

end Pyclib
