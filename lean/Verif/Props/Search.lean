import Verif.Model.Search
import Verif.Spec.Search
import Verif.Props.Utils
/-! C83: `find_text` finds exactly the lines that contain the text. -/
namespace Pyclib
open Spec

theorem isLine_nil (i : Nat) (l : Str) : IsLine [] i l ↔ i = 0 ∧ l = [] := by
  constructor
  · rintro ⟨a, b, h, -, -, hi, -⟩
    have : a = [] ∧ l = [] := by simp at h; exact ⟨h.1, h.2.1⟩
    rw [this.1] at hi
    exact ⟨hi.symm, this.2⟩
  · rintro ⟨rfl, rfl⟩
    exact ⟨[], [], rfl, by simp, .inl rfl, rfl, .inl rfl⟩

theorem isLine_newline (s : Str) (i : Nat) (l : Str) :
    IsLine ('\n' :: s) i l ↔ (i = 0 ∧ l = []) ∨ ∃ j, i = j + 1 ∧ IsLine s j l := by
  constructor
  · rintro ⟨a, b, h, hl, ha, hi, hb⟩
    cases a with
    | nil =>
      cases l with
      | nil => exact .inl ⟨hi.symm, rfl⟩
      | cons c l => simp at h; rw [← h.1] at hl; simp at hl
    | cons c a =>
      simp only [List.cons_append, List.cons.injEq] at h
      obtain ⟨rfl, rfl⟩ := h
      refine .inr ⟨a.count '\n', by simp at hi; omega, a, b, rfl, hl, ?_, rfl, hb⟩
      cases a with
      | nil => exact .inl rfl
      | cons d a => exact .inr (by simpa using ha)
  · rintro (⟨rfl, rfl⟩ | ⟨j, rfl, a, b, rfl, hl, ha, hi, hb⟩)
    · exact ⟨[], '\n' :: s, rfl, by simp, .inl rfl, rfl, .inr rfl⟩
    · refine ⟨'\n' :: a, b, rfl, hl, .inr ?_, by simp [hi], hb⟩
      rcases ha with rfl | ha
      · rfl
      · cases a with
        | nil => cases ha
        | cons c a => simpa using ha

theorem isLine_char {c : Char} (hc : c ≠ '\n') (s : Str) (i : Nat) (l : Str) :
    IsLine (c :: s) i l ↔ (i = 0 ∧ ∃ l', l = c :: l' ∧ IsLine s 0 l') ∨ (i ≠ 0 ∧ IsLine s i l) := by
  constructor
  · rintro ⟨a, b, h, hl, ha, hi, hb⟩
    cases a with
    | nil =>
      refine .inl ⟨hi.symm, ?_⟩
      cases l with
      | nil =>
        simp only [List.nil_append] at h
        rcases hb with rfl | hb
        · cases h
        · rw [← h] at hb; simp at hb; exact absurd hb hc
      | cons d l =>
        simp only [List.nil_append, List.cons_append, List.cons.injEq] at h
        obtain ⟨rfl, rfl⟩ := h
        exact ⟨l, rfl, [], b, rfl, by simp at hl; exact hl.2, .inl rfl, rfl, hb⟩
    | cons d a =>
      simp only [List.cons_append, List.cons.injEq] at h
      obtain ⟨rfl, rfl⟩ := h
      have hcount : (c :: a).count '\n' = a.count '\n' := by simp [List.count_cons, hc]
      have ha' : a.getLast? = some '\n' := by
        rcases ha with ha | ha
        · cases ha
        · cases a with
          | nil => simp at ha; exact absurd ha hc
          | cons e a => simpa using ha
      have hpos : 0 < a.count '\n' := List.count_pos_iff.2 (List.mem_of_getLast? ha')
      exact .inr ⟨by omega, a, b, rfl, hl, .inr ha', by omega, hb⟩
  · rintro (⟨rfl, l', rfl, a, b, rfl, hl, ha, hi, hb⟩ | ⟨h0, a, b, rfl, hl, ha, hi, hb⟩)
    · have : a = [] := by
        rcases ha with rfl | ha
        · rfl
        · have := List.count_pos_iff.2 (List.mem_of_getLast? ha); omega
      subst this
      exact ⟨[], b, by simp, by simp [hl, Ne.symm hc], .inl rfl, rfl, hb⟩
    · refine ⟨c :: a, b, rfl, hl, .inr ?_, by simp [List.count_cons, hc, hi], hb⟩
      rcases ha with rfl | ha
      · simp at hi; omega
      · cases a with
        | nil => cases ha
        | cons e a => simpa using ha

theorem splitOnC_ne_nil (c : Char) (s : Str) : splitOnC c s ≠ [] := by
  cases s with
  | nil => simp [splitOnC]
  | cons d s =>
    unfold splitOnC
    split
    · simp
    · split <;> simp

/-- Splitting gives the lines. -/
theorem splitOn_line : ∀ (s : Str) (i : Nat) (l : Str), (splitOnC '\n' s)[i]? = some l ↔ IsLine s i l
  | [], i, l => by
    rw [isLine_nil]
    cases i with
    | zero => simp [splitOnC, eq_comm]
    | succ i => simp [splitOnC]
  | c :: s, i, l => by
    have ih := splitOn_line s
    by_cases hc : c = '\n'
    · subst hc
      rw [isLine_newline, splitOnC, if_pos rfl]
      cases i with
      | zero => simp [eq_comm]
      | succ i => simp [ih]
    · rw [isLine_char hc, splitOnC, if_neg hc]
      cases hs : splitOnC '\n' s with
      | nil => exact absurd hs (splitOnC_ne_nil _ _)
      | cons w ws =>
        rw [hs] at ih
        cases i with
        | zero =>
          have h0 := fun l => ih 0 l
          simp only [List.getElem?_cons_zero, Option.some.injEq] at h0 ⊢
          constructor
          · rintro rfl; exact .inl ⟨trivial, w, rfl, (h0 w).1 rfl⟩
          · rintro (⟨-, l', rfl, h⟩ | ⟨h, -⟩)
            · rw [(h0 l').2 h]
            · exact absurd rfl h
        | succ i =>
          have h1 := ih (i + 1) l
          simp only [List.getElem?_cons_succ] at h1 ⊢
          rw [h1]; simp

theorem mem_findLines (f t : Str) : ∀ (ls : List Str) (k : Nat) (x : Str × Nat × Str),
    x ∈ findLines f t k ls ↔ x.1 = f ∧ ∃ i, x.2.1 = k + i ∧ ls[i]? = some x.2.2 ∧ contains x.2.2 t = true
  | [], k, x => by simp [findLines]
  | l :: ls, k, x => by
    rw [findLines, List.mem_append, mem_findLines f t ls (k + 1) x]
    constructor
    · rintro (h | ⟨h1, i, h2, h3, h4⟩)
      · split at h
        · simp at h; subst h; exact ⟨rfl, 0, rfl, rfl, by assumption⟩
        · cases h
      · exact ⟨h1, i + 1, by omega, by simpa using h3, h4⟩
    · rintro ⟨h1, i, h2, h3, h4⟩
      cases i with
      | zero =>
        simp at h3
        subst h3
        left
        rw [if_pos h4]
        obtain ⟨a, b, c⟩ := x
        simp_all
      | succ i => exact .inr ⟨h1, i, by omega, by simpa using h3, h4⟩

/-- The results within a file come in the order of the lines. -/
theorem findLines_sorted (f t : Str) : ∀ (ls : List Str) (k : Nat),
    (findLines f t k ls).Pairwise fun x y => x.2.1 < y.2.1
  | [], _ => List.Pairwise.nil
  | l :: ls, k => by
    rw [findLines]
    split
    · refine List.Pairwise.cons (fun y hy => ?_) (findLines_sorted f t ls (k + 1))
      obtain ⟨-, i, h, -, -⟩ := (mem_findLines f t ls (k + 1) y).1 hy
      show k < y.2.1
      omega
    · exact findLines_sorted f t ls (k + 1)

/-- C83: `find_text` returns exactly the lines of the header texts that contain the text, with file name and
line number. -/
theorem C83_exact (t : Str) : ∀ (files : List (Str × Option Str)) (r : List (Str × Nat × Str)),
    findText t files = .ok r → ∀ f i l,
      (f, i, l) ∈ r ↔ ∃ s, (f, some s) ∈ files ∧ IsLine s i l ∧ Occurs t l
  | [], r, h, f, i, l => by cases h; simp
  | (_, none) :: _, r, h, _, _, _ => by cases h
  | (g, some s) :: fs, r, h, f, i, l => by
    rw [findText] at h
    split at h
    · cases h
    · rename_i r' e
      cases h
      rw [List.mem_append, mem_findLines, C83_exact t fs r' e f i l]
      simp only [splitOn_line, contains_iff, Nat.zero_add, List.mem_cons, Prod.mk.injEq, Option.some.injEq]
      constructor
      · rintro (⟨rfl, j, rfl, h1, h2⟩ | ⟨s', h1, h2⟩)
        · exact ⟨s, .inl ⟨rfl, rfl⟩, h1, h2⟩
        · exact ⟨s', .inr h1, h2⟩
      · rintro ⟨s', ⟨rfl, rfl⟩ | h1, h2, h3⟩
        · exact .inl ⟨rfl, i, rfl, h2, h3⟩
        · exact .inr ⟨s', h1, h2, h3⟩

/-- C83: the order is that of the files, and of the lines within a file; no line comes twice. -/
theorem C83_order (t : Str) : ∀ (files : List (Str × Option Str)) (r : List (Str × Nat × Str)),
    findText t files = .ok r →
    r.Pairwise fun x y => (x.1 = y.1 ∧ x.2.1 < y.2.1) ∨ [x.1, y.1].Sublist (files.map (·.1))
  | [], r, h => by cases h; exact List.Pairwise.nil
  | (_, none) :: _, r, h => by cases h
  | (g, some s) :: fs, r, h => by
    rw [findText] at h
    split at h
    · cases h
    · rename_i r' e
      cases h
      rw [List.pairwise_append]
      refine ⟨?_, ?_, ?_⟩
      · refine (findLines_sorted g t _ 0).imp_of_mem fun {x y} hx hy hxy => .inl ⟨?_, hxy⟩
        rw [((mem_findLines _ _ _ _ x).1 hx).1, ((mem_findLines _ _ _ _ y).1 hy).1]
      · refine (C83_order t fs r' e).imp fun {x y} h => ?_
        rcases h with h | h
        · exact .inl h
        · exact .inr (by simpa using List.Sublist.cons g h)
      · intro x hx y hy
        obtain ⟨s', h1, -⟩ := (C83_exact t fs r' e y.1 y.2.1 y.2.2).1 hy
        rw [((mem_findLines _ _ _ _ x).1 hx).1]
        refine .inr ?_
        rw [List.map_cons]
        refine List.Sublist.cons_cons g (List.singleton_sublist.2 (List.mem_map.2 ⟨_, h1, rfl⟩))

/-- C83: it raises exactly if a header was missing, and then `AttributeError`, even if the other headers
contain the text. -/
theorem C83_missing (t : Str) : ∀ files : List (Str × Option Str),
    ((∃ f, (f, none) ∈ files) ↔ findText t files = .error .attributeError) ∧
    ((¬ ∃ f, (f, none) ∈ files) ↔ ∃ r, findText t files = .ok r)
  | [] => by simp [findText]
  | (f, none) :: fs => by
    simp only [findText, List.mem_cons]
    exact ⟨⟨fun _ => trivial, fun _ => ⟨f, .inl rfl⟩⟩, ⟨fun h => absurd ⟨f, .inl rfl⟩ h, fun ⟨r, h⟩ => by cases h⟩⟩
  | (f, some s) :: fs => by
    obtain ⟨h1, h2⟩ := C83_missing t fs
    have e : (∃ g, (g, none) ∈ (f, some s) :: fs) ↔ ∃ g, (g, none) ∈ fs := by simp
    rw [e, h1, ← h1, h2]
    rw [findText]
    cases hf : findText t fs with
    | error e =>
      rw [hf] at h1 h2
      simp at h1 h2 ⊢
      exact h1
    | ok r =>
      rw [hf] at h1 h2
      simp at h1 h2 ⊢
      exact h1

/-- C83 at work: two headers, one of them with the text in two lines; a missing header. -/
theorem C83_example :
    findText c%"int" [(c%"a.h", some c%"int x;\nchar y;\n int z;"), (c%"b.h", some c%"float f;\n// uint8_t")] =
      .ok [(c%"a.h", 0, c%"int x;"), (c%"a.h", 2, c%" int z;"), (c%"b.h", 1, c%"// uint8_t")] ∧
    findText c%"int" [(c%"a.h", some c%"int x;"), (c%"b.h", none)] = .error .attributeError := ⟨by rfl, by rfl⟩

end Pyclib
