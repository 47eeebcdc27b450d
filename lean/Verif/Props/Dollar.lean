import Verif.Props.File
/-! Names with dollar signs (C58). -/
namespace Pyclib
open Spec

/-- Letters, digits, underscores and dollar signs. -/
def DollarWord (w : Str) : Prop := ∀ c ∈ w, isWordC c = true ∨ c = '$'

/-- C58 for names with dollar signs: a name consists of letters, digits, underscores and dollar signs, and is read as a whole wherever a name
is expected, if what stands in front of its first dollar sign is not a word of the language. -/
theorem C58_dollar_partial (cfg : Cfg) (p : Char) (ws : Str) (c : Char) (w r : Str) (hws : ws.all isWhite = true)
    (hp : ws ≠ [] ∨ (isWordC p = false ∧ p ≠ '$')) (hc : isIdentStart c = true) (hw : DollarWord w)
    (hk : (c :: w).takeWhile (fun d => decide (d ≠ '$')) ∉ keywords cfg) (hr : ∀ d, r.head? = some d → isWordC d = false ∧ d ≠ '$') :
    identP cfg ⟨p, ws ++ (c :: w) ++ r⟩ = some (c :: w, posAfter (c :: w) r) := by
  have hs : Pos.skip ⟨p, ws ++ (c :: w) ++ r⟩ = ⟨ws.getLastD p, c :: (w ++ r)⟩ := by
    have hcw : isWhite c = false := by
      cases h : isWhite c with
      | false => rfl
      | true =>
        simp [isWhite] at h
        rcases h with ((rfl | rfl) | rfl) | rfl <;> exact absurd hc (by decide)
    have : ∀ (ws : Str) (p : Char), ws.all isWhite = true → skipWs p (ws ++ c :: (w ++ r)) = ⟨ws.getLastD p, c :: (w ++ r)⟩ := by
      intro ws
      induction ws with
      | nil => intro p _; simp [skipWs, hcw]
      | cons d ws ih =>
        intro p h
        simp only [List.all_cons, Bool.and_eq_true] at h
        rw [List.cons_append, skipWs, if_pos h.1, ih d h.2]
        cases ws <;> rfl
    unfold Pos.skip
    simpa using this ws p hws
  have hprev : isIdC (ws.getLastD p) = false := by
    rcases List.eq_nil_or_concat ws with rfl | ⟨us, d, rfl⟩
    · rcases hp with h | ⟨h1, h2⟩
      · exact (h rfl).elim
      · simp [isIdC, h1, h2]
    · have : isWhite d = true := by simpa using (List.all_eq_true.1 hws) d (by simp)
      simp only [List.getLastD_eq_getLast?, List.concat_eq_append, List.getLast?_append, List.getLast?_singleton, Option.some_or, Option.getD_some]
      simp [isWhite] at this
      rcases this with ((rfl | rfl) | rfl) | rfl <;> decide
  have hcw : isWordC c = true := by
    obtain ⟨_, _, e, _, h, _⟩ := ident_first (w := [c]) ⟨c, [], rfl, hc, by simp⟩
    cases e; exact h
  have hcd : c ≠ '$' := by rintro rfl; exact absurd hc (by decide)
  have h1 : (c :: (w ++ r)).takeWhile isWordC = (c :: w).takeWhile (fun d => decide (d ≠ '$')) := by
    have : ∀ w : Str, DollarWord w → (w ++ r).takeWhile isWordC = w.takeWhile (fun d => decide (d ≠ '$')) := by
      intro w
      induction w with
      | nil =>
        intro _
        cases r with
        | nil => rfl
        | cons d r => exact List.takeWhile_cons_of_neg (by simp [(hr d rfl).1])
      | cons d w ih =>
        intro hw
        have hd := hw d (by simp)
        by_cases e : d = '$'
        · subst e
          rw [List.cons_append, List.takeWhile_cons_of_neg (by decide), List.takeWhile_cons_of_neg (by decide)]
        · have : isWordC d = true := by rcases hd with h | h; exact h; exact absurd h e
          rw [List.cons_append, List.takeWhile_cons_of_pos this, List.takeWhile_cons_of_pos (by simpa using e),
            ih (fun x hx => hw x (by simp [hx]))]
    have hx := this (c :: w) (by
      intro d hd
      rcases List.mem_cons.1 hd with rfl | hd
      · exact .inl hcw
      · exact hw d hd)
    simpa using hx
  have h2 := takeWhile_split (p := isIdC) (w := c :: w) (r := r) (by
      intro d hd
      rcases List.mem_cons.1 hd with rfl | hd
      · simp [isIdC, hcw]
      · rcases hw d hd with h | h <;> simp [isIdC, h]) (by
      intro d hd
      obtain ⟨h3, h4⟩ := hr d hd
      simp [isIdC, h3, h4])
  unfold identP
  rw [hs]
  simp only [hprev, h1, hk, if_false, Bool.false_eq_true]
  rw [← List.cons_append, h2.1, h2.2]
  simp [hc]

/-- What stands behind the name does not belong to it, and the name is recorded: `int a$b, $c;`. -/
theorem C58_example_dollar :
    (fileGet c%"int a$b = 3;\nint f$(int x$1);" .variables c%"a$b").map Option.isSome = some true ∧
    (fileGet c%"int a$b = 3;\nint f$(int x$1);" .variables c%"a").map Option.isSome = some false ∧
    (fileGet c%"int a$b = 3;\nint f$(int x$1);" .functions c%"f$").map Option.isSome = some true := by decide +kernel

/-- A name that begins with a word of the language and a dollar sign is not read. -/
theorem C58_counterexample_dollar : (fileGet c%"char int$b;" .variables c%"int$b").map Option.isSome = some false := by decide +kernel

end Pyclib
