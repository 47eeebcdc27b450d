import Verif.Spec.Macro
/-! Helper lemmas about macro expansion. -/
namespace Pyclib
open Spec

/-! ### String literals -/

theorem strLit_eq {s a r : Str} (h : strLit s = some (a, r)) : a ++ r = s ∧ a ≠ [] := by
  induction s using strLit.induct generalizing a r with
  | case1 => simp [strLit] at h
  | case2 s => simp [strLit] at h; obtain ⟨rfl, rfl⟩ := h; simp
  | case3 s a' r' hx ih =>
    simp only [strLit, hx] at h
    cases h
    simp [(ih hx).1]
  | case4 s hx ih =>
    simp only [strLit, hx] at h
    cases h; simp
  | case5 c s h1 h2 ih =>
    rw [strLit] at h
    · obtain ⟨p, hp, he⟩ := Option.map_eq_some_iff.1 h
      obtain ⟨a', r'⟩ := p
      cases he
      simp [(ih hp).1]
    · exact h1
    · exact h2

theorem strLit_isSome (s : Str) : (strLit s).isSome = true ↔ '"' ∈ s := by
  induction s using strLit.induct with
  | case1 => simp [strLit]
  | case2 s => simp [strLit]
  | case3 s a' r' hx ih => simp [strLit, hx]
  | case4 s hx ih => simp [strLit, hx]
  | case5 c s h1 h2 ih =>
    rw [strLit]
    · simp only [Option.isSome_map, ih, List.mem_cons]
      constructor
      · exact .inr
      · rintro (h | h)
        · exact (h1 h.symm).elim
        · exact h
    · exact h1
    · exact h2

theorem strLit_none {s : Str} (h : '"' ∉ s) : strLit s = none := by
  cases hs : strLit s with
  | none => rfl
  | some p => exact (h ((strLit_isSome s).1 (by simp [hs]))).elim

/-- The contents of a literal, then the closing quote. -/
theorem strLit_content (s r : Str) (h1 : '"' ∉ s) (h2 : s.getLast? ≠ some '\\') :
    strLit (s ++ '"' :: r) = some (s ++ ['"'], r) := by
  induction s with
  | nil => simp [strLit]
  | cons c s ih =>
    have hc : c ≠ '"' := by rintro rfl; simp at h1
    have ih' := ih (by intro h; exact h1 (by simp [h])) (by
      intro h; apply h2
      cases s with
      | nil => simp at h
      | cons d s => simpa [List.getLast?_cons] using h)
    rw [List.cons_append, strLit]
    · simp [ih']
    · exact hc
    · intro s' hc' hs
      subst hc'
      cases s with
      | nil => simp at h2
      | cons d s => simp at hs; apply h1; simp [hs.1]

/-! ### The search -/

theorem takeWhile_append_dropWhile' (p : Char → Bool) (s : Str) : s.takeWhile p ++ s.dropWhile p = s :=
  List.takeWhile_append_dropWhile

theorem takeWhile_true {p : Char → Bool} {s : Str} {c : Char} (h : c ∈ s.takeWhile p) : p c = true := by
  induction s with
  | nil => simp at h
  | cons d s ih =>
    rw [List.takeWhile_cons] at h
    split at h
    · rcases List.mem_cons.1 h with rfl | h
      · assumption
      · exact ih h
    · simp at h

theorem dropWhile_length (p : Char → Bool) (s : Str) : (s.dropWhile p).length ≤ s.length :=
  (List.dropWhile_sublist p).length_le

theorem dropWhile_head {p : Char → Bool} (s : Str) : ∀ c ∈ (s.dropWhile p).head?, p c = false := by
  induction s with
  | nil => simp
  | cons d s ih =>
    by_cases h : p d = true
    · simpa [List.dropWhile_cons, h] using ih
    · intro c hc
      simp [h] at hc
      subst hc; simpa using h

/-- What a search for a word tells. -/
structure WordFound (line pre w rest : Str) : Prop where
  eq : line = pre ++ w ++ rest
  ne : w ≠ []
  wd : ∀ c ∈ w, isWordC c = true
  pre : ∀ c ∈ pre, isWordC c = false
  head : ∀ c ∈ rest.head?, isWordC c = false

theorem findTok_word {line pre w rest : Str} (h : findTok line = .word pre w rest) :
    WordFound line pre w rest := by
  induction line generalizing pre with
  | nil => simp [findTok] at h
  | cons c s ih =>
    have hpush : (findTok s).push c = .word pre w rest → isWordC c = false →
        WordFound (c :: s) pre w rest := by
      intro h hc
      cases hf : findTok s with
      | none => simp [hf, Found.push] at h
      | str => simp [hf, Found.push] at h
      | word pre' w' rest' =>
        simp only [hf, Found.push, Found.word.injEq] at h
        obtain ⟨rfl, rfl, rfl⟩ := h
        obtain ⟨h1, h2, h3, h4, h5⟩ := ih hf
        exact ⟨by simp [h1], h2, h3, by
          intro d hd
          rcases List.mem_cons.1 hd with rfl | hd
          · exact hc
          · exact h4 d hd, h5⟩
    simp only [findTok] at h
    split at h
    · rename_i hq
      split at h
      · cases h
      · exact hpush h (by rw [hq]; rfl)
    · split at h
      · rename_i hw
        cases h
        refine ⟨by simp, by simp, ?_, by simp, dropWhile_head s⟩
        intro d hd
        rcases List.mem_cons.1 hd with rfl | hd
        · exact hw
        · exact (takeWhile_true hd)
      · rename_i hw; exact hpush h (by simpa using hw)

theorem findTok_str {line : Str} (h : findTok line = .str) : 2 ≤ line.length := by
  induction line with
  | nil => simp [findTok] at h
  | cons c s ih =>
    have hpush : (findTok s).push c = .str → 2 ≤ (c :: s).length := by
      intro h
      cases hf : findTok s with
      | none => simp [hf, Found.push] at h
      | str => have := ih hf; simp; omega
      | word pre' w' rest' => simp [hf, Found.push] at h
    simp only [findTok] at h
    split at h
    · split at h
      · rename_i hs
        have := (strLit_isSome s).1 hs
        cases s with
        | nil => simp at this
        | cons d s => simp
      · exact hpush h
    · split at h
      · cases h
      · exact hpush h

theorem WordFound.lt {line pre w rest : Str} (h : WordFound line pre w rest) :
    rest.length < line.length := by
  have := List.length_pos_iff.2 h.ne
  rw [h.eq]; simp; omega

/-! ### Argument analysis -/

theorem split1_length {c : Char} {s a b : Str} (h : split1 c s = some (a, b)) :
    s = a ++ c :: b := by
  induction s generalizing a with
  | nil => simp [split1] at h
  | cons d s ih =>
    simp only [split1] at h
    split at h
    · rename_i hd; cases h; subst hd; rfl
    · split at h
      · cases h
      · rename_i a' b' h'
        cases h
        rw [ih h']; rfl

theorem splitOnC_length {c : Char} {s w : Str} (h : w ∈ splitOnC c s) : w.length ≤ s.length := by
  induction s generalizing w with
  | nil => simp [splitOnC] at h; subst h; simp
  | cons d s ih =>
    simp only [splitOnC] at h
    split at h
    · rcases List.mem_cons.1 h with rfl | h
      · simp
      · have := ih h; simp; omega
    · split at h
      · simp at h; subst h; simp
      · rename_i w' ws hw
        rcases List.mem_cons.1 h with rfl | h
        · have := ih (w := w') (by simp [hw]); simp; omega
        · have := ih (w := w) (by simp [hw, h]); simp; omega

theorem strip_length (s : Str) : (strip s).length ≤ s.length := by
  unfold strip rstrip lstrip
  rw [List.length_reverse]
  refine Nat.le_trans (dropWhile_length _ _) ?_
  rw [List.length_reverse]
  exact dropWhile_length _ _

theorem callArgs_length {text : Str} {args : List Str} {stop : Str}
    (h : callArgs text = some (args, stop)) :
    (∀ a ∈ args, a.length < text.length) ∧ stop.length < text.length := by
  unfold callArgs at h
  split at h
  · cases h
  · rename_i a rest h1
    split at h
    · cases h
    · rename_i j a' h2
      cases h
      have e1 := split1_length h1
      have e2 := split1_length h2
      subst e2; subst e1
      refine ⟨?_, by simp; omega⟩
      intro x hx
      obtain ⟨y, hy, rfl⟩ := List.mem_map.1 hx
      have := splitOnC_length hy
      have := strip_length y
      simp; omega

theorem mapOpt_some {α β : Type} {f : α → Option β} {g : α → β} {as : List α}
    (h : ∀ a ∈ as, f a = some (g a)) : mapOpt f as = some (as.map g) := by
  induction as with
  | nil => rfl
  | cons a as ih =>
    simp only [mapOpt, h a (by simp), ih (fun x hx => h x (by simp [hx]))]
    rfl

theorem split1_none {c : Char} {s : Str} (h : c ∉ s) : split1 c s = none := by
  induction s with
  | nil => rfl
  | cons d s ih =>
    have hd : d ≠ c := by rintro rfl; simp at h
    simp [split1, hd, ih (fun hc => h (by simp [hc]))]

theorem split1_app {c : Char} {a b : Str} (h : c ∉ a) : split1 c (a ++ c :: b) = some (a, b) := by
  induction a with
  | nil => simp [split1]
  | cons d a ih =>
    have hd : d ≠ c := by rintro rfl; simp at h
    simp [split1, hd, ih (fun hc => h (by simp [hc]))]

theorem mem_joinC {c d : Char} {ws : List Str} (h : d ∈ joinC c ws) : d = c ∨ ∃ w ∈ ws, d ∈ w := by
  induction ws with
  | nil => simp [joinC] at h
  | cons w ws ih =>
    cases ws with
    | nil => exact .inr ⟨w, by simp, by simpa [joinC] using h⟩
    | cons w' ws =>
      simp only [joinC, List.mem_append, List.mem_cons] at h
      rcases h with h | h | h
      · exact .inr ⟨w, by simp, h⟩
      · exact .inl h
      · rcases ih h with h | ⟨x, h1, h2⟩
        · exact .inl h
        · exact .inr ⟨x, List.mem_cons_of_mem _ h1, h2⟩

theorem splitOnC_nosep {c : Char} {s : Str} (h : c ∉ s) : splitOnC c s = [s] := by
  induction s with
  | nil => rfl
  | cons d s ih =>
    have hd : d ≠ c := by rintro rfl; simp at h
    simp [splitOnC, hd, ih (fun hc => h (by simp [hc]))]

theorem splitOnC_app {c : Char} {a s : Str} (h : c ∉ a) : splitOnC c (a ++ c :: s) = a :: splitOnC c s := by
  induction a with
  | nil => simp [splitOnC]
  | cons d a ih =>
    have hd : d ≠ c := by rintro rfl; simp at h
    simp [splitOnC, hd, ih (fun hc => h (by simp [hc]))]

theorem splitOnC_joinC {c : Char} {ws : List Str} (hne : ws ≠ []) (h : ∀ w ∈ ws, c ∉ w) :
    splitOnC c (joinC c ws) = ws := by
  induction ws with
  | nil => exact (hne rfl).elim
  | cons w ws ih =>
    cases ws with
    | nil => simpa [joinC] using splitOnC_nosep (h w (by simp))
    | cons w' ws =>
      rw [joinC, splitOnC_app (h w (by simp)), ih (by simp) (fun x hx => h x (by simp [hx]))]
      all_goals simp

theorem space_not_word {c : Char} (h : isSpaceC c = true) : isWordC c = false := by
  have hc : c = Char.ofNat c.toNat := (Char.ofNat_toNat c).symm
  simp only [isSpaceC, Bool.or_eq_true, decide_eq_true_eq] at h
  rcases h with ((((((((h | h) | h) | h) | h) | h) | h) | h) | h) | h <;>
    first
    | (subst h; decide)
    | (rw [h] at hc; rw [hc]; decide)

/-! ### Fuel -/

/-- With enough fuel the result does not depend on it. -/
theorem expandF_total (orc : Str → List Str → Option Str) (env : MEnv) : ∀ (k : Nat) (line : Str),
    line.length ≤ k → ∃ r, ∀ m, line.length < m → expandF orc env m line = some r := by
  intro k
  induction k using Nat.strongRecOn with
  | ind k ih =>
    intro line hk
    have sub : ∀ l : Str, l.length < line.length → ∃ r, ∀ m, l.length < m → expandF orc env m l = some r :=
      fun l hl => ih l.length (by omega) l (Nat.le_refl _)
    have cont : ∀ (l : Str) (g : Str → Str), l.length < line.length →
        ∃ r, ∀ n, line.length ≤ n → (expandF orc env n l).map g = some r := by
      intro l g hl
      obtain ⟨r, hr⟩ := sub l hl
      exact ⟨g r, fun n hn => by rw [hr n (by omega)]; rfl⟩
    suffices h : ∃ r, ∀ n, line.length ≤ n → expandF orc env (n + 1) line = some r by
      obtain ⟨r, hr⟩ := h
      exact ⟨r, fun m hm => by obtain ⟨n, rfl⟩ : ∃ n, m = n + 1 := ⟨m - 1, by omega⟩
                               exact hr n (by omega)⟩
    cases hf : findTok line with
    | none => exact ⟨line, fun n _ => by simp only [expandF, hf]⟩
    | str =>
      have h2 := findTok_str hf
      obtain ⟨r, hr⟩ := cont (line.drop (line.length - 1)) (line.dropLast ++ ·) (by simp; omega)
      exact ⟨r, fun n hn => by simp only [expandF, hf]; exact hr n hn⟩
    | word pre w rest =>
      have hlt := (findTok_word hf).lt
      obtain ⟨r0, hr0⟩ := cont rest (fun r => pre ++ w ++ r) hlt
      cases hm : dget env.macros w with
      | some v =>
        obtain ⟨r, hr⟩ := cont rest (fun r => pre ++ v ++ r) hlt
        exact ⟨r, fun n hn => by simp only [expandF, hf, hm]; exact hr n hn⟩
      | none =>
        cases hfn : dget env.fnmacros w with
        | none => exact ⟨r0, fun n hn => by simp only [expandF, hf, hm, hfn]; exact hr0 n hn⟩
        | some defn =>
          cases hc : callArgs rest with
          | none => exact ⟨r0, fun n hn => by simp only [expandF, hf, hm, hfn, hc]; exact hr0 n hn⟩
          | some p =>
            obtain ⟨args, stop⟩ := p
            obtain ⟨ha, hs⟩ := callArgs_length hc
            have hargs : ∀ a ∈ args, ∀ n, line.length ≤ n →
                expandF orc env n a = some ((expandF orc env line.length a).getD []) := by
              intro a h n hn
              obtain ⟨r, hr⟩ := sub a (by have := ha a h; omega)
              rw [hr n (by have := ha a h; omega), hr line.length (by have := ha a h; omega)]; rfl
            cases hp : (pickArgs (args.map fun a => (expandF orc env line.length a).getD []) defn.2).bind
                (pyFormat orc defn.1) with
            | none =>
              refine ⟨r0, fun n hn => ?_⟩
              simp only [expandF, hf, hm, hfn, hc, mapOpt_some (fun a h => hargs a h n hn), hp]
              exact hr0 n hn
            | some t =>
              obtain ⟨r, hr⟩ := cont stop (fun r => pre ++ t ++ r) (by omega)
              refine ⟨r, fun n hn => ?_⟩
              simp only [expandF, hf, hm, hfn, hc, mapOpt_some (fun a h => hargs a h n hn), hp]
              exact hr n hn

theorem expandF_eq (orc : Str → List Str → Option Str) (env : MEnv) (line : Str) (m : Nat)
    (h : line.length < m) : expandF orc env m line = some (expandMacros orc env line) := by
  obtain ⟨r, hr⟩ := expandF_total orc env _ line (Nat.le_refl _)
  rw [hr m h, expandMacros, hr _ (Nat.lt_succ_self _)]; rfl

section equations
variable (orc : Str → List Str → Option Str) (env : MEnv) {line pre w rest : Str}

theorem expand_none (h : findTok line = .none) : expandMacros orc env line = line := by
  simp [expandMacros, expandF, h]

theorem expand_str (h : findTok line = .str) :
    expandMacros orc env line = line.dropLast ++ expandMacros orc env (line.drop (line.length - 1)) := by
  have h2 := findTok_str h
  have e := expandF_eq orc env (line.drop (line.length - 1)) line.length (by simp; omega)
  conv => lhs; rw [expandMacros, expandF]
  simp only [h, e]; rfl

theorem expand_obj {v : Str} (h : findTok line = .word pre w rest) (hm : dget env.macros w = some v) :
    expandMacros orc env line = pre ++ v ++ expandMacros orc env rest := by
  have e := expandF_eq orc env rest line.length (findTok_word h).lt
  conv => lhs; rw [expandMacros, expandF]
  simp only [h, hm, e]; rfl

theorem expand_plain (h : findTok line = .word pre w rest) (hm : dget env.macros w = none)
    (hf : dget env.fnmacros w = none) :
    expandMacros orc env line = pre ++ w ++ expandMacros orc env rest := by
  have e := expandF_eq orc env rest line.length (findTok_word h).lt
  conv => lhs; rw [expandMacros, expandF]
  simp only [h, hm, hf, e]; rfl

/-- Replacement text of a call whose text after the name is `rest`; `none` if the call is faulty. -/
def callResult (defn : Str × List Nat) (rest : Str) : Option (Str × Str) :=
  match callArgs rest with
  | none => none
  | some (args, stop) =>
    ((pickArgs (args.map (expandMacros orc env)) defn.2).bind (pyFormat orc defn.1)).map (·, stop)

theorem expand_fn {defn : Str × List Nat} (h : findTok line = .word pre w rest)
    (hm : dget env.macros w = none) (hf : dget env.fnmacros w = some defn) :
    expandMacros orc env line =
      match callResult orc env defn rest with
      | none => pre ++ w ++ expandMacros orc env rest
      | some (t, stop) => pre ++ t ++ expandMacros orc env stop := by
  have hlt := (findTok_word h).lt
  have e := expandF_eq orc env rest line.length hlt
  conv => lhs; rw [expandMacros, expandF]
  simp only [h, hm, hf, callResult]
  cases hc : callArgs rest with
  | none => simp only [e]; rfl
  | some p =>
    obtain ⟨args, stop⟩ := p
    obtain ⟨ha, hs⟩ := callArgs_length hc
    have hmo : mapOpt (expandF orc env line.length) args = some (args.map (expandMacros orc env)) :=
      mapOpt_some (fun a h => expandF_eq orc env a _ (by have := ha a h; omega))
    have e2 := expandF_eq orc env stop line.length (by omega)
    simp only [hmo]
    cases (pickArgs (args.map (expandMacros orc env)) defn.2).bind (pyFormat orc defn.1) with
    | none => simp only [e]; rfl
    | some t => simp only [e2]; rfl

end equations

end Pyclib
