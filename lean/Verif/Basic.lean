/-
Python-ish base layer shared by all models.

* text is `Str = List Char` (Python `str`); `c%"abc"` is a literal of that type;
* `Dict` is a Python `dict`: an insertion-ordered association list (assignment to an existing key
  keeps its position, assignment to a new key appends);
* exceptions are the values of `PyErr`.
-/

namespace Pyclib

/-- Python `str`. -/
abbrev Str := List Char

open Lean in
/-- `c%"abc"` elaborates to the literal list `['a', 'b', 'c'] : Str`. -/
macro:max "c%" s:str : term => do
  let cs : Array (TSyntax `term) := (s.getString.toList.map (fun c => (⟨(Syntax.mkCharLit c).raw⟩ : TSyntax `term))).toArray
  `(([$cs,*] : Str))

/-- The Python exceptions that the modelled code can raise. -/
inductive PyErr where
  | keyError | indexError | typeError | attributeError | nameError | valueError
  | definitionError | ioError | osError | runtimeError | assertionError | structError
  | recursionError | notImplemented
  deriving DecidableEq, Repr

/-- Python `dict` as an insertion-ordered association list. -/
abbrev Dict (κ : Type) (α : Type) := List (κ × α)

section Dict
variable {κ : Type} {α : Type} [DecidableEq κ]

/-- `d.get(k)` / `d[k]`. -/
def dget : Dict κ α → κ → Option α
  | [], _ => none
  | (k', v) :: d, k => if k' = k then some v else dget d k

/-- `k in d`. -/
def dhas (d : Dict κ α) (k : κ) : Bool := (dget d k).isSome

/-- `d[k] = v`. -/
def dset : Dict κ α → κ → α → Dict κ α
  | [], k, v => [(k, v)]
  | (k', v') :: d, k, v => if k' = k then (k, v) :: d else (k', v') :: dset d k v

/-- `del d[k]` for a key that is present. -/
def ddel (d : Dict κ α) (k : κ) : Dict κ α := d.filter (fun p => p.1 ≠ k)

/-- The keys in insertion order. -/
def dkeys (d : Dict κ α) : List κ := d.map (·.1)

@[simp] theorem dget_nil (k : κ) : dget ([] : Dict κ α) k = none := rfl

theorem dget_cons (p : κ × α) (d : Dict κ α) (k : κ) :
    dget (p :: d) k = if p.1 = k then some p.2 else dget d k := rfl

@[simp] theorem dget_dset_self (d : Dict κ α) (k : κ) (v : α) : dget (dset d k v) k = some v := by
  induction d with
  | nil => simp [dset, dget]
  | cons p d ih =>
    obtain ⟨k', v'⟩ := p
    by_cases h : k' = k <;> simp [dset, dget, h, ih]

theorem dget_dset_ne (d : Dict κ α) {k k' : κ} (v : α) (h : k ≠ k') :
    dget (dset d k v) k' = dget d k' := by
  induction d with
  | nil => simp [dset, dget, h]
  | cons p d ih =>
    obtain ⟨k₀, v₀⟩ := p
    by_cases h0 : k₀ = k
    · subst h0; simp [dset, dget, h]
    · simp only [dset, h0, if_false, dget, ih]

theorem dget_dset (d : Dict κ α) (k k' : κ) (v : α) :
    dget (dset d k v) k' = if k = k' then some v else dget d k' := by
  by_cases h : k = k'
  · subst h; simp
  · simp [h, dget_dset_ne d v h]

@[simp] theorem dget_ddel_self (d : Dict κ α) (k : κ) : dget (ddel d k) k = none := by
  induction d with
  | nil => rfl
  | cons p d ih =>
    obtain ⟨k', v'⟩ := p
    unfold ddel at ih ⊢
    by_cases h : k' = k
    · simpa [h] using ih
    · simp [h, dget]; simpa using ih

theorem dget_ddel_ne (d : Dict κ α) {k k' : κ} (h : k ≠ k') :
    dget (ddel d k) k' = dget d k' := by
  induction d with
  | nil => rfl
  | cons p d ih =>
    obtain ⟨k₀, v₀⟩ := p
    unfold ddel at ih ⊢
    by_cases h0 : k₀ = k
    · subst h0; simp [dget, h]; simpa using ih
    · simp only [ne_eq, h0, not_false_eq_true, decide_true, List.filter_cons_of_pos, dget, ih]

theorem dget_ddel (d : Dict κ α) (k k' : κ) :
    dget (ddel d k) k' = if k = k' then none else dget d k' := by
  by_cases h : k = k'
  · subst h; simp
  · simp [h, dget_ddel_ne d h]

theorem dget_some_mem {d : Dict κ α} {k : κ} {v : α} (h : dget d k = some v) : (k, v) ∈ d := by
  induction d with
  | nil => simp at h
  | cons p d ih =>
    obtain ⟨k', v'⟩ := p
    by_cases h0 : k' = k
    · simp [dget, h0] at h; simp [h0, h]
    · simp [dget, h0] at h; exact List.mem_cons_of_mem _ (ih h)

theorem dget_isSome_iff {d : Dict κ α} {k : κ} : (dget d k).isSome ↔ k ∈ dkeys d := by
  induction d with
  | nil => simp [dkeys]
  | cons p d ih =>
    obtain ⟨k', v'⟩ := p
    by_cases h0 : k' = k
    · simp [dget, h0, dkeys]
    · have : k ≠ k' := fun h => h0 h.symm
      simp [dget, h0, dkeys, this] at ih ⊢
      simpa using ih

theorem dget_none_iff {d : Dict κ α} {k : κ} : dget d k = none ↔ k ∉ dkeys d := by
  rw [← dget_isSome_iff]; cases dget d k <;> simp

/-- A dict has pairwise distinct keys. -/
def DNodup (d : Dict κ α) : Prop := (dkeys d).Nodup

theorem dkeys_dset (d : Dict κ α) (k : κ) (v : α) :
    dkeys (dset d k v) = if k ∈ dkeys d then dkeys d else dkeys d ++ [k] := by
  induction d with
  | nil => simp [dset, dkeys]
  | cons p d ih =>
    obtain ⟨k', v'⟩ := p
    by_cases h0 : k' = k
    · simp [dset, dkeys, h0]
    · have h1 : k ≠ k' := fun h => h0 h.symm
      simp only [dset, h0, if_false]
      simp only [dkeys, List.map_cons, List.mem_cons, h1, false_or] at ih ⊢
      rw [ih]; split <;> simp_all

theorem DNodup.dset {d : Dict κ α} (h : DNodup d) (k : κ) (v : α) : DNodup (dset d k v) := by
  unfold DNodup at *
  rw [dkeys_dset]
  split
  · exact h
  · rename_i hk
    rw [List.nodup_append]
    refine ⟨h, by simp, ?_⟩
    intro a ha b hb
    simp at hb; subst hb
    intro hab; subst hab; exact hk ha

theorem DNodup.ddel {d : Dict κ α} (h : DNodup d) (k : κ) : DNodup (ddel d k) := by
  unfold DNodup dkeys Pyclib.ddel at *
  exact List.Nodup.sublist ((List.filter_sublist).map _) h

theorem dget_of_mem {d : Dict κ α} (h : DNodup d) {k : κ} {v : α} (hm : (k, v) ∈ d) :
    dget d k = some v := by
  induction d with
  | nil => simp at hm
  | cons p d ih =>
    obtain ⟨k', v'⟩ := p
    simp only [DNodup, dkeys, List.map_cons, List.nodup_cons] at h
    rcases List.mem_cons.1 hm with h1 | h1
    · injection h1 with h2 h3; subst h2; subst h3; simp [dget]
    · have : k' ≠ k := by
        intro e; subst e
        exact h.1 (List.mem_map.2 ⟨_, h1, rfl⟩)
      simp [dget, this]
      exact ih h.2 h1

end Dict

end Pyclib
