import Verif.Spec.Reads
import Verif.Proof.IndepText
import Verif.Proof.EvalLocal
import Verif.Props.MacroValue
import Verif.Props.Robust
/-
The preprocessor depends only on what it looks up: two runs side by side (C85).
-/
namespace Pyclib
open Spec

/-! ### Words of parts of a line -/

theorem Spec.LooksAt.part {n p r q : Str} (h : LooksAt n r) (hp : ∀ c, p.getLast? = some c → isWordC c = false)
    (hq : ∀ c, q.head? = some c → isWordC c = false) : LooksAt n (p ++ (r ++ q)) := by
  obtain ⟨h1, h2, a, b, rfl, h3, h4⟩ := h
  refine ⟨h1, h2, p ++ a, b ++ q, by simp, h3.imp (fun h3 c hc => ?_) id, fun c hc => ?_⟩
  · cases a with
    | nil => exact hp c (by simpa using hc)
    | cons d a =>
      rw [List.getLast?_append] at hc
      cases e : (d :: a).getLast? with
      | none => simp at e
      | some x => rw [e] at hc; exact h3 c (by rw [e]; simpa using hc)
  · cases b with
    | nil => exact hq c (by simpa using hc)
    | cons d b => exact h4 c (by simpa using hc)

theorem Spec.LooksAt.after {n p r : Str} (h : LooksAt n r) (hr : ∀ c, r.head? = some c → isWordC c = false) :
    LooksAt n (p ++ r) := by
  obtain ⟨h1, h2, a, b, rfl, h3, h4⟩ := h
  refine ⟨h1, h2, p ++ a, b, by simp, h3.imp (fun h3 c hc => ?_) id, h4⟩
  cases a with
  | nil =>
    exfalso
    obtain ⟨d, w', rfl⟩ := List.exists_cons_of_ne_nil h1
    have := hr d rfl
    simp only [List.all_cons, Bool.and_eq_true] at h2
    rw [h2.1] at this
    cases this
  | cons d a =>
    rw [List.getLast?_append] at hc
    cases e : (d :: a).getLast? with
    | none => simp at e
    | some x => rw [e] at hc; exact h3 c (by rw [e]; simpa using hc)

/-- The last character of a line. -/
theorem looksAt_last {n line : Str} (h : LooksAt n (line.drop (line.length - 1))) : LooksAt n line := by
  obtain ⟨h1, h2, a, b, h3, h4, h5⟩ := h
  have hl : (line.drop (line.length - 1)).length ≤ 1 := by simp; omega
  have hn := List.length_pos_iff.2 h1
  have h6 : n.length = 1 := by rw [h3] at hl; simp at hl; omega
  refine ⟨h1, h2, line.take (line.length - 1) ++ a, b, ?_, .inr h6, h5⟩
  rw [List.append_assoc, ← h3, List.take_append_drop]

theorem splitOnC_parts {c : Char} : ∀ {s w : Str} {ws : List Str}, splitOnC c s = w :: ws →
    (∃ q, s = w ++ q ∧ ∀ d, q.head? = some d → d = c) ∧
    ∀ e ∈ ws, ∃ p q, s = p ++ (e ++ q) ∧ p.getLast? = some c ∧ ∀ d, q.head? = some d → d = c
  | [], w, ws, h => by
    simp only [splitOnC, List.cons.injEq] at h
    obtain ⟨rfl, rfl⟩ := h
    exact ⟨⟨[], rfl, by simp⟩, by simp⟩
  | d :: s, w, ws, h => by
    simp only [splitOnC] at h
    split at h
    · rename_i hd
      subst hd
      simp only [List.cons.injEq] at h
      obtain ⟨rfl, rfl⟩ := h
      refine ⟨⟨d :: s, rfl, by simp⟩, fun e he => ?_⟩
      cases hs : splitOnC d s with
      | nil => rw [hs] at he; cases he
      | cons w ws =>
        obtain ⟨⟨q, h1, h2⟩, h3⟩ := splitOnC_parts hs
        rw [hs] at he
        rcases List.mem_cons.1 he with rfl | he
        · exact ⟨[d], q, by rw [h1]; rfl, rfl, h2⟩
        · obtain ⟨p, q, h4, h5, h6⟩ := h3 e he
          refine ⟨d :: p, q, by rw [h4]; rfl, ?_, h6⟩
          cases p with
          | nil => cases h5
          | cons y p => rw [List.getLast?_cons_cons]; exact h5
    · split at h
      · simp only [List.cons.injEq] at h
        obtain ⟨rfl, rfl⟩ := h
        rename_i hs
        cases s with
        | nil => exact ⟨⟨[], rfl, by simp⟩, by simp⟩
        | cons x s =>
          exfalso
          simp only [splitOnC] at hs
          split at hs
          · cases hs
          · split at hs <;> cases hs
      · rename_i w' ws' hs
        simp only [List.cons.injEq] at h
        obtain ⟨rfl, rfl⟩ := h
        obtain ⟨⟨q, h1, h2⟩, h3⟩ := splitOnC_parts hs
        refine ⟨⟨q, by rw [h1]; rfl, h2⟩, fun e he => ?_⟩
        obtain ⟨p, q, h4, h5, h6⟩ := h3 e he
        refine ⟨d :: p, q, by rw [h4]; rfl, ?_, h6⟩
        cases p with
        | nil => cases h5
        | cons y p => rw [List.getLast?_cons_cons]; exact h5

theorem splitOnC_part {c : Char} {s e : Str} (h : e ∈ splitOnC c s) : ∃ p q, s = p ++ (e ++ q) ∧
    (∀ d, p.getLast? = some d → d = c) ∧ ∀ d, q.head? = some d → d = c := by
  cases hs : splitOnC c s with
  | nil => rw [hs] at h; cases h
  | cons w ws =>
    obtain ⟨⟨q, h1, h2⟩, h3⟩ := splitOnC_parts hs
    rw [hs] at h
    rcases List.mem_cons.1 h with rfl | h
    · exact ⟨[], q, h1, by simp, h2⟩
    · obtain ⟨p, q, h4, h5, h6⟩ := h3 e h
      exact ⟨p, q, h4, fun d hd => by rw [h5] at hd; exact (Option.some.inj hd).symm, h6⟩

theorem looksAt_strip {n r : Str} (h : LooksAt n (strip r)) : LooksAt n r := by
  obtain ⟨a, b, h1, h2, h3⟩ := strip_parts r
  rw [h1]
  rw [List.all_eq_true] at h2 h3
  exact h.part (fun c hc => space_not_word (h2 c (List.mem_of_getLast? hc)))
    fun c hc => space_not_word (h3 c (List.mem_of_head? hc))

/-- Arguments of a call, and the text after it. -/
theorem looksAt_call {text stop : Str} {args : List Str} (h : callArgs text = some (args, stop)) {n : Str} :
    (LooksAt n stop → LooksAt n text) ∧ ∀ a ∈ args, LooksAt n a → LooksAt n text := by
  unfold callArgs at h
  split at h
  · cases h
  · rename_i a rest e1
    split at h
    · cases h
    · rename_i b a' e2
      simp only [Option.some.injEq, Prod.mk.injEq] at h
      obtain ⟨rfl, rfl⟩ := h
      have h1 := split1_length e1
      have h2 := split1_length e2
      constructor
      · intro hs
        rw [h1, show a ++ ')' :: rest = (a ++ [')']) ++ (rest ++ []) by simp]
        exact hs.part (by simp; rfl) (by simp)
      · intro x hx hl
        obtain ⟨y, hy, rfl⟩ := List.mem_map.1 hx
        obtain ⟨p, q, h3, h4, h5⟩ := splitOnC_part hy
        have : text = (b ++ ['(']) ++ ((p ++ (y ++ q)) ++ (')' :: rest)) := by rw [h1, h2, h3]; simp
        rw [this]
        refine ((looksAt_strip hl).part (fun c hc => ?_) fun c hc => ?_).part (by simp; rfl) (by simp; rfl)
        · rw [h4 c hc]; rfl
        · rw [h5 c hc]; rfl

/-! ### Expansion of macros -/

/-- The macro tables agree on the names that the line asks for. -/
def LAgree (e e' : MEnv) (line : Str) : Prop :=
  ∀ n, LooksAt n line → dget e.macros n = dget e'.macros n ∧ dget e.fnmacros n = dget e'.fnmacros n

theorem mapOpt_same {α β : Type} {f f' : α → Option β} : ∀ {l : List α}, (∀ a ∈ l, f a = f' a) → mapOpt f l = mapOpt f' l
  | [], _ => rfl
  | a :: l, h => by
    simp only [mapOpt, h a (by simp), mapOpt_same (l := l) fun b hb => h b (by simp [hb])]

theorem expandF_same (orc : Str → List Str → Option Str) {e e' : MEnv} : ∀ (k : Nat) (line : Str), LAgree e e' line →
    expandF orc e k line = expandF orc e' k line
  | 0, _, _ => rfl
  | k + 1, line, h => by
    simp only [expandF]
    cases hf : findTok line with
    | none => rfl
    | str =>
      simp only
      rw [expandF_same orc k _ fun n hn => h n (looksAt_last hn)]
    | word pre w rest =>
      obtain ⟨h1, h2, h3, h4, h5⟩ := findTok_word hf
      have hw : LooksAt w line := ⟨h2, List.all_eq_true.2 h3, pre, rest, by rw [h1, List.append_assoc],
        .inl fun c hc => h4 c (List.mem_of_getLast? hc), h5⟩
      have hr : ∀ n, LooksAt n rest → LooksAt n line := fun n hn => by rw [h1]; exact hn.after h5
      have ir := expandF_same orc (e := e) (e' := e') k rest fun n hn => h n (hr n hn)
      simp only [(h w hw).1, (h w hw).2, ir]
      cases hc : callArgs rest with
      | none => rfl
      | some p =>
        obtain ⟨args, stop⟩ := p
        have is := expandF_same orc (e := e) (e' := e') k stop fun n hn => h n (hr n ((looksAt_call hc).1 hn))
        have ia := mapOpt_same (f := expandF orc e k) (f' := expandF orc e' k) (l := args) fun a ha =>
          expandF_same orc k a fun n hn => h n (hr n ((looksAt_call hc).2 a ha hn))
        simp only [is, ia]

theorem expandMacros_same (orc : Str → List Str → Option Str) {e e' : MEnv} {line : Str} (h : LAgree e e' line) :
    expandMacros orc e line = expandMacros orc e' line := by
  unfold expandMacros
  rw [expandF_same orc _ _ h]

/-! ### Conditions -/

theorem skipBlank_part (s : Str) : ∃ a, s = a ++ skipBlank s ∧ ∀ c ∈ a, isWordC c = false := by
  refine ⟨s.takeWhile (fun c => c = ' ' || c = '\t'), (List.takeWhile_append_dropWhile).symm, fun c hc => ?_⟩
  have := takeWhile_true hc
  simp only [Bool.or_eq_true, decide_eq_true_eq] at this
  rcases this with rfl | rfl <;> rfl

/-- An identifier after blanks, with something in front that is no word character. -/
theorem identTok_looks {s x r : Str} (h : identTok s = some (x, r)) : ∃ a, s = a ++ (x ++ r) ∧ x ≠ [] ∧ x.all isWordC = true ∧
    (∀ c ∈ a, isWordC c = false) ∧ (∃ c t, x = c :: t ∧ isIdentStart c = true) ∧ ∀ c, r.head? = some c → isWordC c = false := by
  obtain ⟨a, h1, h2⟩ := skipBlank_part s
  unfold identTok at h
  split at h
  · rename_i c t e
    split at h
    · rename_i hc
      simp only [Option.some.injEq, Prod.mk.injEq] at h
      obtain ⟨rfl, rfl⟩ := h
      refine ⟨a, ?_, by simp, ?_, h2, ⟨c, _, rfl, hc⟩, dropWhile_hd _ _⟩
      · conv => lhs; rw [h1, e]
        simp
      · rw [List.all_cons, Bool.and_eq_true]
        refine ⟨?_, by simp⟩
        simp only [isIdentStart, Bool.or_eq_true, decide_eq_true_eq] at hc
        simp only [isWordC, Char.isAlphanum, Bool.or_eq_true, decide_eq_true_eq]
        exact hc.imp .inl id
    · cases h
  · cases h

theorem definedArg_looks {d : Char} {s x r : Str} (hd : isKwChar d = false) (h : definedArg (d :: s) = some (x, r)) :
    LooksAt x (d :: s) ∧ ∃ a, d :: s = a ++ r := by
  have hdw : isWordC d = false := by simp only [isKwChar, Bool.or_eq_false_iff] at hd; exact hd.1
  unfold definedArg at h
  split at h
  · rename_i p e
    cases h
    obtain ⟨a, h1, h2, h3, h4, _, h6⟩ := identTok_looks e
    exact ⟨⟨h2, h3, a, _, h1, .inl fun c hc => h4 c (List.mem_of_getLast? hc), h6⟩, a ++ x, by rw [h1, List.append_assoc]⟩
  · obtain ⟨a, h1, _⟩ := skipBlank_part (d :: s)
    split at h
    · rename_i t e
      split at h
      · cases h
      · rename_i y r' e2
        obtain ⟨a', h1', h2, h3, h4, _, h6⟩ := identTok_looks e2
        split at h
        · simp only [Option.some.injEq, Prod.mk.injEq] at h
          obtain ⟨rfl, rfl⟩ := h
          rename_i r'' e4
          obtain ⟨b, h7, _⟩ := skipBlank_part r'
          refine ⟨⟨h2, h3, a ++ '(' :: a', r', ?_, .inl fun c hc => ?_, h6⟩, a ++ '(' :: (a' ++ (y ++ (b ++ [')']))), ?_⟩
          · rw [h1, e, h1']; simp
          · rw [List.getLast?_append] at hc
            cases a' with
            | nil => simp at hc; rw [← hc]; rfl
            | cons z a' =>
              have hc' : (z :: a').getLast? = some c := by
                rw [List.getLast?_cons_cons] at hc
                cases e3 : (z :: a').getLast? with
                | none => simp at e3
                | some u => rw [e3] at hc; simpa using hc
              exact h4 c (List.mem_of_getLast? hc')
          · rw [h1, e, h1', h7, e4]; simp
        · cases h
    · cases h

/-- The names that the operator `defined` asks for. -/
def DAgree (f f' : Str → Bool) (s : Str) : Prop :=
  ∀ p r x, s = p ++ r → (∀ c, r.head? = some c → isWordC c = false) → LooksAt x r → f x = f' x

theorem DAgree.tail {f f' : Str → Bool} {s a r : Str} (h : DAgree f f' s) (e : s = a ++ r) : DAgree f f' r :=
  fun p q x h1 h2 h3 => h (a ++ p) q x (by rw [e, h1, List.append_assoc]) h2 h3

theorem definedLoop_same {f f' : Str → Bool} : ∀ (n : Nat) (b : Bool) (s : Str), DAgree f f' s →
    definedLoop f n b s = definedLoop f' n b s
  | 0, _, _, _ => rfl
  | n + 1, _, [], _ => rfl
  | n + 1, b, c :: s, h => by
    have ic := definedLoop_same n (isKwChar c) s (h.tail (a := [c]) rfl)
    simp only [definedLoop]
    rw [ic]
    split
    · cases hd : (c :: s).drop 7 with
      | nil => rfl
      | cons d t =>
        have hs : c :: s = (c :: s).take 7 ++ d :: t := by rw [← hd, List.take_append_drop]
        simp only
        split
        · rfl
        · rename_i hk
          cases ha : definedArg (d :: t) with
          | none => rfl
          | some p =>
            obtain ⟨x, r'⟩ := p
            have hk' : isKwChar d = false := by simpa using hk
            obtain ⟨h1, a, h2⟩ := definedArg_looks hk' ha
            have hdw : isWordC d = false := by simp only [isKwChar, Bool.or_eq_false_iff] at hk'; exact hk'.1
            have h3 : f x = f' x := h _ (d :: t) x hs (fun e he => by simp at he; rw [← he]; exact hdw) h1
            simp only [h3]
            rw [definedLoop_same n false r' ((h.tail hs).tail h2)]
    · rfl

theorem substDefined_same {e e' : MEnv} {r : Str} (h : LAgree e e' r) : substDefined e r = substDefined e' r := by
  unfold substDefined
  refine definedLoop_same _ _ _ fun p q x h1 h2 h3 => ?_
  have := h x (by rw [h1]; exact h3.after h2)
  simp only [isDefined, dhas, this.1, this.2]

theorem condE_same (orc : Str → List Str → Option Str) (pyo : Str → Option Bool) {e e' : MEnv} {r : Str} (h : LAgree e e' r)
    (h' : LAgree e e' (substDefined e r)) : condE orc pyo e r = condE orc pyo e' r := by
  unfold condE
  rw [← substDefined_same h, expandMacros_same orc h']

/-! ### Lines -/

theorem lAgree_of {s t : St} (hs : MacOk s) (ht : MacOk t) {line : Str}
    (h : ∀ k n, isMac k → LooksAt n line → dget (s.defs k) n = dget (t.defs k) n) : LAgree (menvOf s) (menvOf t) line := by
  intro n hn
  rw [mac_get hs, mac_get ht, fn_get hs, fn_get ht, h .macros n (.inl rfl) hn, h .fnmacros n (.inr rfl) hn]
  exact ⟨rfl, rfl⟩

theorem defineIn_same {w : Setup} (hp : PyWords w.py) {U : Str → Prop} (s t : St) (n r : Str)
    (h1 : dget (s.defs .fnmacros) (parseDefine r).2 = dget (t.defs .fnmacros) (parseDefine r).2)
    (h2 : ∀ x, WordIn x (evalText w.castGram (parseDefine r).2) → dget (s.defs .values) x = dget (t.defs .values) x) :
    SameOps U s (defineIn w.ev s n r) t (defineIn w.ev t n r) := by
  simp only [defineIn, ← h1]
  cases dget (s.defs .fnmacros) (parseDefine r).2 with
  | some f => exact .add _ _ _ _ _
  | none =>
    cases (parseDefine r).1 with
    | some ps => exact .add _ _ _ _ _
    | none =>
      have he : evIn w.ev s (parseDefine r).2 = evIn w.ev t (parseDefine r).2 := evalExpr_same hp h2
      simp only [← he]
      exact (Spec.SameOps.add _ _ _ _ _).trans (.add _ _ _ _ _)

/-- The outcomes of two steps. -/
inductive StepRel {α : Type} (U : Str → Prop) (s t : St) :
    Except PyErr (PPState St × α) → Except PyErr (PPState St × α) → Prop
  | error (e : PyErr) : StepRel U s t (.error e) (.error e)
  | ok (a : PPState St) (env : St) (o : α) : SameOps U s a.env t env → MacOk a.env → MacOk env →
      StepRel U s t (.ok (a, o)) (.ok (a.mapE fun _ => env, o))

theorem ppStep_same {w : Setup} (hp : PyWords w.py) {U : Str → Prop} (i : Nat) (st : PPState St) (t : St) (l : Line)
    (hs : MacOk st.env) (ht : MacOk t) (hu : ∀ n, l = .undef n → U n) (h : AgreeOn (LineReads w st l) st.env t) :
    StepRel U st.env t (ppStep w.sem i st l) (ppStep w.sem i (st.mapE fun _ => t) l) := by
  obtain ⟨env, it, ih, ps, pk, pl⟩ := st
  have keep : ∀ (it ih : List Bool) (o : Option Out), StepRel U env t (.ok (⟨env, it, ih, ps, pk, pl⟩, o))
      (.ok (⟨t, it, ih, ps, pk, pl⟩, o)) := fun it ih o =>
    StepRel.ok (⟨env, it, ih, ps, pk, pl⟩ : PPState St) t o (.refl _ _) hs ht
  have condS : ∀ r, (∀ k n, isMac k → LooksAt n r ∨ LooksAt n (substDefined (menvOf env) r) →
      dget (env.defs k) n = dget (t.defs k) n) → w.sem.cond env r = w.sem.cond t r := by
    intro r hr
    simp only [Setup.sem]
    rw [condE_same w.orc w.pyo (lAgree_of hs ht fun k n hk hn => hr k n hk (.inl hn))
      (lAgree_of hs ht fun k n hk hn => hr k n hk (.inr hn))]
  have expS : ∀ r, (∀ k n, isMac k → LooksAt n r → dget (env.defs k) n = dget (t.defs k) n) →
      w.sem.expand env r = w.sem.expand t r := by
    intro r hr
    simp only [Setup.sem]
    exact expandMacros_same _ (lAgree_of hs ht hr)
  cases l with
  | code l =>
    cases it with
    | nil => exact .error _
    | cons b it =>
      cases b with
      | false => exact keep _ _ _
      | true =>
        have := expS l fun k n hk hn => h k n ⟨rfl, hk, hn⟩
        simp only [ppStep, PPState.mapE, ← this]
        exact keep _ _ _
  | dif r =>
    by_cases ha : it.all id = true
    · have := condS r fun k n hk hn => h k n ⟨ha, hk, hn⟩
      simp only [ppStep, PPState.mapE, ← this]
      exact keep _ _ _
    · have e : ∀ env : St, ppStep w.sem i (⟨env, it, ih, ps, pk, pl⟩ : PPState St) (.dif r) =
          .ok (⟨env, false :: it, false :: ih, ps, pk, pl⟩, some .blank) := by
        intro env
        simp only [ppStep, if_neg ha]
      rw [e env, show PPState.mapE (fun _ => t) (⟨env, it, ih, ps, pk, pl⟩ : PPState St) = ⟨t, it, ih, ps, pk, pl⟩ from rfl, e t]
      exact keep _ _ _
  | delif r =>
    cases ih with
    | nil => exact .error _
    | cons hh hs' =>
      cases it with
      | nil => exact .error _
      | cons b ts =>
        simp only [ppStep, PPState.mapE]
        cases hh with
        | true => exact keep _ _ _
        | false =>
          cases ha : ts.all id with
          | false => exact keep _ _ _
          | true =>
            have := condS r fun k n hk hn => h k n ⟨ha, rfl, hk, hn⟩
            simp only [Bool.not_true, Bool.or_false, Bool.false_eq_true, if_false, ← this]
            exact keep _ _ _
  | delse =>
    cases ih with
    | nil => exact .error _
    | cons hh hs' =>
      cases it with
      | nil => exact .error _
      | cons b ts => exact keep _ _ _
  | dendif =>
    cases ih with
    | nil => exact .error _
    | cons hh hs' =>
      cases it with
      | nil => exact .error _
      | cons b ts => exact keep _ _ _
  | define n r =>
    cases it with
    | nil => exact .error _
    | cons b ts =>
      cases b with
      | false => exact keep _ _ _
      | true =>
        have h1 := expS r fun k m hk hm => h k m ⟨rfl, .inl ⟨hk, hm⟩⟩
        simp only [ppStep, PPState.mapE, ← h1]
        have h2 := defineIn_same hp (U := U) env t n (defText w ⟨env, true :: ts, ih, ps, pk, pl⟩ r)
          (h _ _ ⟨rfl, .inr (.inl ⟨rfl, rfl⟩)⟩) fun x hx => h _ _ ⟨rfl, .inr (.inr ⟨rfl, hx⟩)⟩
        exact StepRel.ok (⟨_, true :: ts, ih, ps, pk, pl⟩ : PPState St) _ _ h2 (menv_define hs w.ev n _).2
          (menv_define ht w.ev n _).2
  | undef n =>
    cases it with
    | nil => exact .error _
    | cons b ts =>
      cases b with
      | false => exact keep _ _ _
      | true =>
        exact StepRel.ok (⟨(remDef env .macros n).1, true :: ts, ih, ps, pk, pl⟩ : PPState St) (remDef t .macros n).1 _
          (.undef _ _ (hu n rfl)) (menv_undef hs n).2 (menv_undef ht n).2
  | pragma r =>
    cases it with
    | nil => exact .error _
    | cons b ts =>
      cases b with
      | false => exact keep _ _ _
      | true =>
        have h1 := expS r fun k m hk hm => h k m ⟨rfl, hk, hm⟩
        simp only [ppStep, PPState.mapE, ← h1]
        cases packMatch (if ts.all id = true then w.sem.expand env r else r) with
        | none => exact keep _ _ _
        | some txt =>
          have h2 : doPack i (⟨t, true :: ts, ih, ps, pk, pl⟩ : PPState St) txt =
              (doPack i ⟨env, true :: ts, ih, ps, pk, pl⟩ txt).map (PPState.mapE fun _ => t) :=
            packEffect_map (fun _ => t) i ⟨env, true :: ts, ih, ps, pk, pl⟩ _ _ _ _
          simp only [h2]
          cases h3 : doPack i (⟨env, true :: ts, ih, ps, pk, pl⟩ : PPState St) txt with
          | error e => exact .error _
          | ok a =>
            have h4 := doPack_env h3
            simp only at h4
            refine StepRel.ok a t _ ?_ (h4 ▸ hs) ht
            rw [h4]
            exact .refl _ _
  | badName => exact .error _
  | other => exact keep _ _ _

theorem runOps_agree {R : Kind → Str → Prop} : ∀ (ops : List (Op DefVal)) (s t : St) {U : Str → Prop}, (∀ o ∈ ops, isEdit U o) →
    AgreeOn R s t → AgreeOn R (runOps s ops) (runOps t ops)
  | [], _, _, _, _, h => h
  | .add k n v :: ops, s, t, U, ho, h => by
    refine runOps_agree ops _ _ (fun o hm => ho o (by simp [hm])) fun k' n' hr => ?_
    show dget ((addDef s k n v).defs k') n' = dget ((addDef t k n v).defs k') n'
    rw [defs_addDef, defs_addDef, h k' n' hr]
  | .rem k n :: ops, s, t, U, ho, h => by
    have h0 := ho (.rem k n) (by simp)
    simp only [isEdit] at h0
    obtain ⟨rfl, _⟩ := h0
    refine runOps_agree ops _ _ (fun o hm => ho o (by simp [hm])) fun k' n' hr => ?_
    show dget ((remDef s .macros n).1.defs k') n' = dget ((remDef t .macros n).1.defs k') n'
    rw [defs_remDef, defs_remDef, h k' n' hr]
  | .file f :: ops, s, t, U, ho, _ => (ho (.file f) (by simp)).elim
  | .imp d :: ops, s, t, U, ho, _ => (ho (.imp d) (by simp)).elim

theorem Spec.SameOps.agree {R : Kind → Str → Prop} {U : Str → Prop} {s s' t t' : St} (h : SameOps U s s' t t')
    (ha : AgreeOn R s t) : AgreeOn R s' t' := by
  obtain ⟨ops, h1, rfl, rfl⟩ := h
  exact runOps_agree ops s t h1 ha

theorem ppRun_same {w : Setup} (hp : PyWords w.py) {U : Str → Prop} {R : Kind → Str → Prop} : ∀ (ls : List Line) (i : Nat)
    (st : PPState St) (t : St), MacOk st.env → MacOk t → (∀ n, .undef n ∈ ls → U n) →
    (∀ a l b st' os, ls = a ++ l :: b → ppRun w.sem i st a = .ok (st', os) → ∀ k n, LineReads w st' l k n → R k n) →
    AgreeOn R st.env t → StepRel U st.env t (ppRun w.sem i st ls) (ppRun w.sem i (st.mapE fun _ => t) ls)
  | [], i, st, t, hs, ht, _, _, _ => StepRel.ok st t _ (.refl _ _) hs ht
  | l :: ls, i, st, t, hs, ht, hu, hr, ha => by
    have h1 := ppStep_same hp (U := U) i st t l hs ht (fun n e => hu n (by simp [e])) fun k n hk =>
      ha k n (hr [] l ls st [] rfl rfl k n hk)
    simp only [ppRun]
    revert h1
    generalize hx : ppStep w.sem i st l = x
    generalize ppStep w.sem i (st.mapE fun _ => t) l = y
    intro h1
    cases h1 with
    | error e => exact .error e
    | ok a env o h2 h3 h4 =>
      have h5 := ppRun_same hp (U := U) (R := R) ls (i + 1) a env h3 h4 (fun n hn => hu n (by simp [hn]))
        (fun pre l' b st' os e hrun k n hk => by
          refine hr (l :: pre) l' b st' (o.toList ++ os) (by rw [e]; rfl) ?_ k n hk
          simp only [ppRun, hx, hrun]) (h2.agree ha)
      simp only
      revert h5
      generalize ppRun w.sem (i + 1) a ls = x
      generalize ppRun w.sem (i + 1) (a.mapE fun _ => env) ls = y
      intro h5
      cases h5 with
      | error e => exact .error e
      | ok a' env' o' h6 h7 h8 => exact StepRel.ok a' env' _ (h2.trans h6) h7 h8

/-! ### Declarations -/

/-- The scope of a text. -/
def readScope (R : Kind → Str → Prop) : Scope :=
  ⟨fun n => R .values n, fun n => R .structs n ∧ R .unions n ∧ R .enums n, fun _ => True⟩

theorem structKw_keyword {y z : Pos} {u : Bool} (h : structKw y = some (u, z)) :
    keyword (compWord u) y = some z ∧ compWord u ∈ tagWords := by
  unfold structKw at h
  split at h
  · rename_i e
    cases h
    exact ⟨e, by decide⟩
  · obtain ⟨p, h1, h2⟩ := Option.map_eq_some_iff.1 h
    cases h2
    exact ⟨h1, by decide⟩

theorem coversText_of {w : Setup} (hp : PyWords w.py) {R : Kind → Str → Prop} {text : Str} (packs : List (Nat × Option Nat))
    (h : ∀ k n, TextReads w text k n → R k n) : CoversText (w.gram packs text) (readScope R) ⟨' ', text⟩ := by
  have ev : ∀ e, (∀ n, WordIn n (evalText w.castGram e) → R .values n) → EvSame (w.gram packs text) (readScope R) e :=
    fun e he tbl tbl' ht => evalExpr_same hp fun x hx => ht x (he x hx)
  have tg : ∀ kw ∈ tagWords, ∀ y z n, Within y ⟨' ', text⟩ → keyword kw y = some z →
      ((∃ v, identP w.cfg z = some (n, v)) ∨ (∃ v, delim '{' z = some v) ∧ ∃ i : Nat, n = c%"anon_" ++ kw ++ natDigits i) →
      (readScope R).tags n := fun kw hk y z n h1 h2 h3 =>
    ⟨h _ _ (.inr ⟨.inl rfl, kw, hk, y, z, h1, h2, h3⟩), h _ _ (.inr ⟨.inr (.inl rfl), kw, hk, y, z, h1, h2, h3⟩),
      h _ _ (.inr ⟨.inr (.inr rfl), kw, hk, y, z, h1, h2, h3⟩)⟩
  exact {
    expr := fun y e h1 h2 => ev e fun n hn => h _ _ (.inl ⟨rfl, .inl ⟨y, e, h1, h2, hn⟩⟩)
    minus := ev _ fun n hn => h _ _ (.inl ⟨rfl, .inr hn⟩)
    tag := fun y u z n v h1 h2 h3 => tg _ (structKw_keyword h2).2 y z n h1 (structKw_keyword h2).1 (.inl ⟨v, h3⟩)
    anon := fun y u z v h1 h2 h3 i => tg _ (structKw_keyword h2).2 y z _ h1 (structKw_keyword h2).1 (.inr ⟨⟨v, h3⟩, i, rfl⟩)
    etag := fun y z n v h1 h2 h3 => tg c%"enum" (by decide) y z n h1 h2 (.inl ⟨v, h3⟩)
    eanon := fun y z v h1 h2 h3 i => tg c%"enum" (by decide) y z _ h1 h2 (.inr ⟨⟨v, h3⟩, i, rfl⟩) }

theorem sameOn_of {R : Kind → Str → Prop} {s t : St} (h : AgreeOn R s t) : SameOn (readScope R) s t where
  vals n hn := h _ n hn
  tags k hk n hn := by
    obtain ⟨h1, h2, h3⟩ := hn
    rcases hk with rfl | rfl | rfl
    · exact h _ n h1
    · exact h _ n h2
    · exact h _ n h3

theorem macOk_adds {s s' : St} (h : MacOk s) (ha : Adds s s') : MacOk s' := by
  induction ha with
  | refl => exact h
  | add s' k n v h1 h2 _ ih =>
    refine ⟨?_, ?_⟩
    · rw [defs_add, if_neg (Ne.symm h1)]; exact ih.mac
    · rw [defs_add, if_neg (Ne.symm h2)]; exact ih.fn

end Pyclib
