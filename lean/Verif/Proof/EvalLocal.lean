import Verif.Model.Eval
import Verif.Proof.EvalRun
import Verif.Spec.TextWords
/-
The value of an expression depends on the values of the words in it only.
-/
namespace Pyclib

theorem WordIn.cons {w s : Str} {c : Char} (h : WordIn w s) (hc : isWordC c = false) : WordIn w (c :: s) := by
  obtain ⟨h1, h2, a, b, rfl, h3, h4⟩ := h
  refine ⟨h1, h2, c :: a, b, rfl, ?_, h4⟩
  intro d hd
  cases a with
  | nil => simp at hd; rw [← hd]; exact hc
  | cons e a => exact h3 d (by simpa [List.getLast?_cons_cons] using hd)

theorem WordIn.after {w r p : Str} (h : WordIn w r) (hr : ∀ c, r.head? = some c → isWordC c = false) : WordIn w (p ++ r) := by
  obtain ⟨h1, h2, a, b, rfl, h3, h4⟩ := h
  cases a with
  | nil =>
    exfalso
    obtain ⟨d, w', rfl⟩ := List.exists_cons_of_ne_nil h1
    have := hr d rfl
    simp only [List.all_cons, Bool.and_eq_true] at h2
    rw [h2.1] at this
    cases this
  | cons e a =>
    refine ⟨h1, h2, p ++ (e :: a), b, by simp, ?_, h4⟩
    intro d hd
    refine h3 d ?_
    rw [List.getLast?_append] at hd
    cases h : (e :: a).getLast? with
    | none => simp at h
    | some x => rw [h] at hd; simpa using hd

theorem numStop_head {r : Str} (h : numStop r = true) : ∀ c, r.head? = some c → isWordC c = false := by
  intro c hc
  simp only [numStop, hc, Option.any_some, Bool.not_eq_true', Bool.or_eq_false_iff] at h
  exact h.1

theorem dropWhile_hd (p : Char → Bool) (s : Str) : ∀ c, (s.dropWhile p).head? = some c → p c = false := by
  intro c hc
  have := List.head?_dropWhile_not p s
  rw [hc] at this
  simpa using this

theorem kTok_words : ∀ (n : Nat) (s : Str) (ts : List KTok), kTok n s = some ts → ∀ w, .id w ∈ ts → WordIn w s := by
  intro n
  induction n with
  | zero => intro s ts h; cases h
  | succ n ih =>
    intro s ts h w hw
    cases s with
    | nil => cases h; cases hw
    | cons c s =>
      have one : ∀ {r : Str} {t : KTok}, (kTok n r).map (t :: ·) = some ts → (∀ x, t ≠ .id x) → ∃ us, kTok n r = some us ∧ .id w ∈ us := by
        intro r t e ht
        cases hr : kTok n r with
        | none => rw [hr] at e; cases e
        | some us =>
          rw [hr] at e
          cases e
          rcases List.mem_cons.1 hw with h' | h'
          · exact absurd h'.symm (ht w)
          · exact ⟨us, rfl, h'⟩
      have sym : ∀ {t : KTok}, (kTok n s).map (t :: ·) = some ts → (∀ x, t ≠ .id x) → isWordC c = false → WordIn w (c :: s) := by
        intro t e ht hc
        obtain ⟨us, e1, e2⟩ := one e ht
        exact (ih _ _ e1 w e2).cons hc
      rw [kTok] at h
      by_cases hc : c = ' ' ∨ c = '\t'
      · rw [if_pos hc] at h
        refine (ih _ _ h w hw).cons ?_
        rcases hc with rfl | rfl <;> decide
      rw [if_neg hc] at h
      clear hc
      by_cases hc : c.isDigit = true
      · rw [if_pos hc] at h
        by_cases hx : c = '0' ∧ (s.head? = some 'x' ∨ s.head? = some 'X')
        · rw [if_pos hx] at h
          by_cases hst : (s.drop 1).takeWhile isHexC ≠ [] ∧ numStop ((s.drop 1).dropWhile isHexC) = true
          · simp only [if_pos hst] at h
            obtain ⟨us, e1, e2⟩ := one h (by intro x; simp)
            have hs : c :: s = (c :: s.take 1 ++ (s.drop 1).takeWhile isHexC) ++ (s.drop 1).dropWhile isHexC := by
              rw [List.append_assoc, List.takeWhile_append_dropWhile, List.cons_append, List.take_append_drop]
            rw [hs]
            exact (ih _ _ e1 w e2).after (numStop_head hst.2)
          · simp only [if_neg hst] at h
            cases h
        · rw [if_neg hx] at h
          by_cases hst : numStop (s.dropWhile Char.isDigit) = true
          · simp only [if_pos hst] at h
            obtain ⟨us, e1, e2⟩ := one h (by intro x; unfold decKTok; split <;> simp)
            have hs : c :: s = (c :: s.takeWhile Char.isDigit) ++ s.dropWhile Char.isDigit := by
              rw [List.cons_append, List.takeWhile_append_dropWhile]
            rw [hs]
            exact (ih _ _ e1 w e2).after (numStop_head hst)
          · simp only [if_neg hst] at h
            cases h
      rw [if_neg hc] at h
      clear hc
      by_cases hst : isIdentStart c = true
      · rw [if_pos hst] at h
        have hs : c :: s = (c :: s.takeWhile isWordC) ++ s.dropWhile isWordC := by
          rw [List.cons_append, List.takeWhile_append_dropWhile]
        have hd := dropWhile_hd isWordC s
        cases hr : kTok n (s.dropWhile isWordC) with
        | none => rw [hr] at h; cases h
        | some us =>
          rw [hr] at h
          cases h
          rcases List.mem_cons.1 hw with h' | h'
          · cases h'
            refine ⟨by simp, ?_, [], s.dropWhile isWordC, hs, by simp, hd⟩
            rw [List.all_cons, Bool.and_eq_true]
            refine ⟨?_, List.all_takeWhile⟩
            revert hst
            simp only [isIdentStart, isWordC, Bool.or_eq_true, Char.isAlphanum]
            intro hst
            grind
          · rw [hs]
            exact (ih _ _ hr w h').after hd
      rw [if_neg hst] at h
      clear hst
      have two : ∀ {t : KTok}, (kTok n (s.drop 1)).map (t :: ·) = some ts → (∀ x, t ≠ .id x) → isWordC c = false →
          (∀ d, s.head? = some d → isWordC d = false) → WordIn w (c :: s) := by
        intro t e ht hc hd
        obtain ⟨us, e1, e2⟩ := one e ht
        cases s with
        | nil => exact (ih _ _ e1 w e2).cons hc
        | cons d s => exact ((ih _ _ e1 w e2).cons (hd d rfl)).cons hc
      by_cases hc : c = '('
      · rw [if_pos hc] at h; exact sym h (by intro x; simp) (by rw [hc]; decide)
      rw [if_neg hc] at h; clear hc
      by_cases hc : c = ')'
      · rw [if_pos hc] at h; exact sym h (by intro x; simp) (by rw [hc]; decide)
      rw [if_neg hc] at h; clear hc
      by_cases hc : c = '~'
      · rw [if_pos hc] at h; exact sym h (by intro x; simp) (by rw [hc]; decide)
      rw [if_neg hc] at h; clear hc
      by_cases hc : c = '|'
      · rw [if_pos hc] at h; exact sym h (by intro x; simp) (by rw [hc]; decide)
      rw [if_neg hc] at h; clear hc
      by_cases hc : c = '^'
      · rw [if_pos hc] at h; exact sym h (by intro x; simp) (by rw [hc]; decide)
      rw [if_neg hc] at h; clear hc
      by_cases hc : c = '&'
      · rw [if_pos hc] at h; exact sym h (by intro x; simp) (by rw [hc]; decide)
      rw [if_neg hc] at h; clear hc
      by_cases hc : c = '+'
      · rw [if_pos hc] at h; exact sym h (by intro x; simp) (by rw [hc]; decide)
      rw [if_neg hc] at h; clear hc
      by_cases hc : c = '-'
      · rw [if_pos hc] at h; exact sym h (by intro x; simp) (by rw [hc]; decide)
      rw [if_neg hc] at h; clear hc
      by_cases hc : c = '%'
      · rw [if_pos hc] at h; exact sym h (by intro x; simp) (by rw [hc]; decide)
      rw [if_neg hc] at h; clear hc
      by_cases hc : c = '*'
      · rw [if_pos hc] at h
        by_cases hd : s.head? = some '*'
        · rw [if_pos hd] at h; cases h
        · rw [if_neg hd] at h; exact sym h (by intro x; simp) (by rw [hc]; decide)
      rw [if_neg hc] at h; clear hc
      by_cases hc : c = '<'
      · rw [if_pos hc] at h
        by_cases hd : s.head? = some '<'
        · rw [if_pos hd] at h
          exact two h (by intro x; simp) (by rw [hc]; decide) (by rw [hd]; intro d e; cases e; decide)
        · rw [if_neg hd] at h
          by_cases he : s.head? = some '='
          · rw [if_pos he] at h
            exact two h (by intro x; simp) (by rw [hc]; decide) (by rw [he]; intro d e; cases e; decide)
          · rw [if_neg he] at h; exact sym h (by intro x; simp) (by rw [hc]; decide)
      rw [if_neg hc] at h; clear hc
      by_cases hc : c = '>'
      · rw [if_pos hc] at h
        by_cases hd : s.head? = some '>'
        · rw [if_pos hd] at h
          exact two h (by intro x; simp) (by rw [hc]; decide) (by rw [hd]; intro d e; cases e; decide)
        · rw [if_neg hd] at h
          by_cases he : s.head? = some '='
          · rw [if_pos he] at h
            exact two h (by intro x; simp) (by rw [hc]; decide) (by rw [he]; intro d e; cases e; decide)
          · rw [if_neg he] at h; exact sym h (by intro x; simp) (by rw [hc]; decide)
      rw [if_neg hc] at h; clear hc
      by_cases hc : c = '='
      · rw [if_pos hc] at h
        by_cases hd : s.head? = some '='
        · rw [if_pos hd] at h
          exact two h (by intro x; simp) (by rw [hc]; decide) (by rw [hd]; intro d e; cases e; decide)
        · rw [if_neg hd] at h; cases h
      rw [if_neg hc] at h; clear hc
      by_cases hc : c = '!'
      · rw [if_pos hc] at h
        by_cases hd : s.head? = some '='
        · rw [if_pos hd] at h
          exact two h (by intro x; simp) (by rw [hc]; decide) (by rw [hd]; intro d e; cases e; decide)
        · rw [if_neg hd] at h; cases h
      rw [if_neg hc] at h; clear hc
      cases h

/-- The remaining tokens are among the tokens. -/
theorem kRun_rest (look : Str → Option Int) : ∀ (n : Nat) (g : KGoal) (ts : List KTok) (p : Int × List KTok),
    kRun look n g ts = some p → ∀ x ∈ p.2, x ∈ ts := by
  intro n
  induction n with
  | zero => intro g ts p h; simp [kRun] at h
  | succ n ih =>
    intro g ts p h x hx
    cases g with
    | lvl k =>
      simp only [kRun] at h
      split at h
      · simp only [Option.bind_eq_some_iff] at h
        obtain ⟨q, h1, h2⟩ := h
        exact ih _ _ _ h1 x (ih _ _ _ h2 x hx)
      · exact ih _ _ _ h x hx
    | loop k a =>
      simp only [kRun] at h
      split at h
      · split at h
        · simp only [Option.bind_eq_some_iff] at h
          obtain ⟨q, h1, w, _, h2⟩ := h
          exact List.mem_cons_of_mem _ (ih _ _ _ h1 x (ih _ _ _ h2 x hx))
        · cases h; exact hx
      · cases h; exact hx
    | un =>
      simp only [kRun] at h
      split at h
      · simp only [Option.map_eq_some_iff] at h
        obtain ⟨q, h1, h2⟩ := h
        cases h2
        exact List.mem_cons_of_mem _ (ih _ _ _ h1 x hx)
      · exact List.mem_cons_of_mem _ (ih _ _ _ h x hx)
      · simp only [Option.map_eq_some_iff] at h
        obtain ⟨q, h1, h2⟩ := h
        cases h2
        exact List.mem_cons_of_mem _ (ih _ _ _ h1 x hx)
      · exact ih _ _ _ h x hx
    | prim =>
      simp only [kRun] at h
      split at h
      · cases h; exact List.mem_cons_of_mem _ hx
      · simp only [Option.map_eq_some_iff] at h
        obtain ⟨q, h1, h2⟩ := h
        cases h2
        exact List.mem_cons_of_mem _ hx
      · simp only [Option.bind_eq_some_iff] at h
        obtain ⟨q, h1, h2⟩ := h
        split at h2
        · rename_i hp
          cases h2
          exact List.mem_cons_of_mem _ (ih _ _ _ h1 x (by rw [hp]; exact List.mem_cons_of_mem _ hx))
        · cases h2
      · cases h

theorem bind_same {α β : Type} {o o' : Option α} {f f' : α → Option β} (h : o = o') (hf : ∀ a, o = some a → f a = f' a) :
    o.bind f = o'.bind f' := by
  subst h
  cases o with
  | none => rfl
  | some a => exact hf a rfl

/-- Names that do not occur do not matter. -/
theorem kRun_same {look look' : Str → Option Int} : ∀ (n : Nat) (g : KGoal) (ts : List KTok),
    (∀ w, .id w ∈ ts → look w = look' w) → kRun look n g ts = kRun look' n g ts := by
  intro n
  induction n with
  | zero => intro g ts _; simp [kRun]
  | succ n ih =>
    intro g ts h
    cases g with
    | lvl k =>
      simp only [kRun]
      split
      · exact bind_same (ih _ _ h) fun p hp => ih _ _ fun w hw => h w (kRun_rest _ _ _ _ _ hp _ hw)
      · exact ih _ _ h
    | loop k a =>
      simp only [kRun]
      split
      · rename_i o us
        have h' : ∀ w, .id w ∈ us → look w = look' w := fun w hw => h w (List.mem_cons_of_mem _ hw)
        split
        · refine bind_same (ih _ _ h') fun p hp => bind_same rfl fun v _ => ?_
          exact ih _ _ fun w hw => h' w (kRun_rest _ _ _ _ _ hp _ hw)
        · rfl
      · rfl
    | un =>
      simp only [kRun]
      split
      · rw [ih _ _ fun w hw => h w (List.mem_cons_of_mem _ hw)]
      · exact ih _ _ fun w hw => h w (List.mem_cons_of_mem _ hw)
      · rw [ih _ _ fun w hw => h w (List.mem_cons_of_mem _ hw)]
      · exact ih _ _ h
    | prim =>
      simp only [kRun]
      split
      · rfl
      · rename_i w us
        rw [h w (by simp)]
      · rw [ih _ _ fun w hw => h w (List.mem_cons_of_mem _ hw)]
      · rfl

theorem kPlain_same {tbl tbl' : Dict Str DefVal} : ∀ (ts : List KTok), (∀ w, .id w ∈ ts → dget tbl w = dget tbl' w) →
    kPlain tbl ts = kPlain tbl' ts := by
  intro ts
  induction ts with
  | nil => intro _; simp [kPlain]
  | cons t ts ih =>
    intro h
    have ih := ih fun w hw => h w (List.mem_cons_of_mem _ hw)
    cases t with
    | id w =>
      cases ts with
      | nil => simp only [kPlain, nameVal, h w (by simp)]
      | cons u us =>
        have nv : nameVal tbl w = nameVal tbl' w := by simp only [nameVal, h w (by simp)]
        cases u <;> first
          | (simp only [kPlain]; done)
          | (simp only [kPlain, nv] at ih ⊢; rw [ih])
          | (simp only [kPlain, nv]; rw [ih])
    | _ =>
      cases ts with
      | nil => simp only [kPlain]
      | cons u us => cases u <;> simp only [kPlain] <;> exact ih

theorem kCmp_same {tbl tbl' : Dict Str DefVal} {ts : List KTok} (h : ∀ w, .id w ∈ ts → dget tbl w = dget tbl' w) :
    kCmp tbl ts = kCmp tbl' ts := by
  have : ts.all (KTok.isInt tbl) = ts.all (KTok.isInt tbl') := by
    rw [Bool.eq_iff_iff, List.all_eq_true, List.all_eq_true]
    refine forall_congr' fun t => forall_congr' fun ht => ?_
    cases t with
    | id w => simp only [KTok.isInt, nameVal, h w ht]
    | _ => exact Iff.rfl
  unfold kCmp
  rw [this]

/-- The Python interpreter looks up the words of the expression only (it might do otherwise if the expression calls
functions like `locals`). -/
def PyWords (py : Dict Str DefVal → Str → PVal) : Prop :=
  ∀ tbl tbl' s, (∀ w, WordIn w s → dget tbl w = dget tbl' w) → py tbl s = py tbl' s

theorem WordIn.mid {w m p q : Str} (h : WordIn w m) (hp : ∀ c, p.getLast? = some c → isWordC c = false)
    (hq : ∀ c, q.head? = some c → isWordC c = false) : WordIn w (p ++ (m ++ q)) := by
  obtain ⟨h1, h2, a, b, rfl, ha, hb⟩ := h
  refine ⟨h1, h2, p ++ a, b ++ q, by simp [List.append_assoc], fun c hc => ?_, fun c hc => ?_⟩
  · cases a with
    | nil => exact hp c (by simpa using hc)
    | cons x a => rw [List.getLast?_append] at hc; exact ha c (by simpa [List.getLast?_cons] using hc)
  · cases b with
    | nil => exact hq c (by simpa using hc)
    | cons x b => exact hb c (by simpa using hc)

theorem kTrim_split (s : Str) : ∃ p q, s = p ++ (kTrim s ++ q) := by
  refine ⟨s.takeWhile isKBlank, ((s.dropWhile isKBlank).reverse.takeWhile isKBlank).reverse, ?_⟩
  unfold kTrim
  rw [← List.reverse_append, List.takeWhile_append_dropWhile, List.reverse_reverse, List.takeWhile_append_dropWhile]

theorem kPart_same {tbl tbl' : Dict Str DefVal} {s : Str} (h : ∀ w, WordIn w s → dget tbl w = dget tbl' w) (g : KGoal) :
    kPart tbl g s = kPart tbl' g s := by
  unfold kPart
  split
  · rfl
  · rename_i ts hts
    have h' : ∀ w, .id w ∈ ts → dget tbl w = dget tbl' w := fun w hw => h w (kTok_words _ _ _ hts w hw)
    rw [kPlain_same ts h', kCmp_same h', kRun_same]
    intro w hw
    simp only [nameVal, h' w hw]

theorem pyQuot_same {tbl tbl' : Dict Str DefVal} : ∀ (n : Nat) (s : Str), (∀ w, WordIn w s → dget tbl w = dget tbl' w) →
    pyQuot tbl n s = pyQuot tbl' n s := by
  intro n
  induction n with
  | zero => intro s _; rfl
  | succ n ih =>
    intro s h
    have hs : s = (s.reverse.dropWhile (· ≠ '/')).reverse ++ (s.reverse.takeWhile (· ≠ '/')).reverse := by
      rw [← List.reverse_append, List.takeWhile_append_dropWhile, List.reverse_reverse]
    simp only [pyQuot]
    cases hd : s.reverse.dropWhile (· ≠ '/') with
    | nil => rfl
    | cons c l =>
      have hc : c = '/' := by
        have := List.head?_dropWhile_not (p := (· ≠ '/')) s.reverse
        rw [hd] at this
        simpa using this
      subst hc
      rw [hd, List.reverse_cons, List.append_assoc] at hs
      have h1 : kPart tbl (.lvl 6) l.reverse = kPart tbl' (.lvl 6) l.reverse := by
        refine kPart_same (fun w hw => h w ?_) _
        have := WordIn.mid (p := []) (q := '/' :: (s.reverse.takeWhile (· ≠ '/')).reverse) hw (by simp) (by simp; decide)
        rw [hs]
        exact this
      have h2 : kPart tbl .un (s.reverse.takeWhile (· ≠ '/')).reverse = kPart tbl' .un (s.reverse.takeWhile (· ≠ '/')).reverse := by
        refine kPart_same (fun w hw => h w ?_) _
        have := WordIn.mid (p := l.reverse ++ ['/']) (q := []) hw (by simp; decide) (by simp)
        rw [List.append_nil, List.append_assoc] at this
        rw [hs]
        exact this
      have h3 : ∀ r, kTrim s = '(' :: r → r.getLast? = some ')' → pyQuot tbl n r.dropLast = pyQuot tbl' n r.dropLast := by
        intro r hr hl
        refine ih _ (fun w hw => h w ?_)
        obtain ⟨p, q, e⟩ := kTrim_split s
        have hr' : r = r.dropLast ++ [')'] := by
          obtain ⟨y, rfl⟩ := List.getLast?_eq_some_iff.1 hl
          simp
        have := WordIn.mid (p := p ++ ['(']) (q := ')' :: q) hw (by simp; decide) (by simp; decide)
        rw [e, hr, hr']
        simpa [List.append_assoc] using this
      simp only [h1, h2]
      split
      · rfl
      · split
        · rename_i r hr
          split
          · rename_i hl; exact h3 r hr hl
          · rfl
        · rfl

theorem evalExpr_same {g : Gram} {py : Dict Str DefVal → Str → PVal} (hp : PyWords py) {tbl tbl' : Dict Str DefVal} {s : Str}
    (h : ∀ w, WordIn w (evalText g s) → dget tbl w = dget tbl' w) : evalExpr g py tbl s = evalExpr g py tbl' s := by
  unfold evalExpr
  split
  · rfl
  · unfold pyEvalK
    split
    · unfold pyEvalF
      rw [pyQuot_same _ _ h, hp _ _ _ h]
    · rename_i ts hts
      have h' : ∀ w, .id w ∈ ts → dget tbl w = dget tbl' w := fun w hw => h w (kTok_words _ _ _ hts w hw)
      rw [kPlain_same ts h', kCmp_same h', hp _ _ _ h]
      have : kEval (fun w => (nameVal tbl w).bind id) ts = kEval (fun w => (nameVal tbl' w).bind id) ts := by
        unfold kEval
        rw [kRun_same]
        intro w hw
        simp only [nameVal, h' w hw]
      rw [this]

end Pyclib
