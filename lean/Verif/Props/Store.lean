import Verif.Proof.Store
/-
C05 – C09: the definition tables.
-/
namespace Pyclib
open Spec
variable {V : Type}

/-! ### C05 -/

/-- C05 (from any state): each history acts on the visible value of (kind, name) as `visStep` says. -/
theorem C05_history (s : Store V) (ops : List (Op V)) (hi : GoodImports ops) (k : Kind) (n : Str) :
    dget ((runOps s ops).defs k) n = ops.foldl (visStep k n) (dget (s.defs k) n) := by
  induction ops generalizing s with
  | nil => rfl
  | cons o os ih =>
    have hi' : GoodImports os := fun d hd => hi d (by simp [hd])
    rw [runOps, ih _ hi', List.foldl_cons]
    congr 1
    cases o with
    | add k' n' v => exact defs_addDef s k' k n' n v
    | rem k' n' => exact defs_remDef s k' k n' n
    | file f => rfl
    | imp d => exact defs_importDict s d (hi d (by simp)) k n

/-- C05: in a new parser, lookup yields the most recent definition not followed by a removal. -/
theorem C05_visible (ops : List (Op V)) (hi : GoodImports ops) (k : Kind) (n : Str) :
    dget ((runOps Store.empty ops).defs k) n = visible ops k n :=
  C05_history _ ops hi k n

/-- C05 (frame): adding or removing one (kind, name) never changes another entry. -/
theorem C05_frame (s : Store V) (k k' : Kind) (n n' : Str) (v : V) (h : ¬ (k = k' ∧ n = n')) :
    dget ((addDef s k n v).defs k') n' = dget (s.defs k') n' ∧
    dget ((remDef s k n).1.defs k') n' = dget (s.defs k') n' ∧
    (∀ f, recorded (addDef s k n v) f k' n' = recorded s f k' n') ∧
    (∀ f, recorded (remDef s k n).1 f k' n' = recorded s f k' n') := by
  refine ⟨?_, ?_, fun f => ?_, fun f => ?_⟩
  · rw [defs_addDef, if_neg h]
  · rw [defs_remDef, if_neg h]
  · rw [recorded_addDef, if_neg (fun hh => h hh.2)]
  · rw [recorded_remDef, if_neg (fun hh => h ⟨hh.2.1, hh.2.2.1⟩)]

/-- C05 (exceptions): `rem_def` raises exactly when the name is not visible or not recorded in the
current file, and the exception is `KeyError`. -/
theorem C05_rem_raises (s : Store V) (k : Kind) (n : Str) (e : PyErr) :
    (remDef s k n).2 = some e ↔
      e = .keyError ∧ (dget (s.defs k) n = none ∨ recorded s (baseOf s.cur) k n = none) := by
  unfold remDef
  cases hd : dget (s.defs k) n with
  | none => simp [dhas, hd, eq_comm]
  | some v =>
    simp only [dhas, hd, Option.isSome_some, if_true, recorded]
    cases hg : dget s.fileDefs (baseOf s.cur) with
    | none => simp [eq_comm]
    | some d =>
      cases hr : dget (d k) n with
      | none => simp [hr, eq_comm]
      | some w => simp [hr]

/-- The example history: two files, a redefinition, a removal. -/
def exOps : List (Op Nat) :=
  [.file (some c%"inc/a.h"), .add .macros c%"X" 1, .add .macros c%"Y" 2,
   .file (some c%"b.h"), .add .macros c%"X" 3, .add .values c%"X" 4, .rem .macros c%"X",
   .add .macros c%"Z" 5]

example : GoodImports exOps := by
  intro d hd
  simp [exOps] at hd
example : visible exOps .macros c%"X" = none ∧ visible exOps .macros c%"Y" = some 2 ∧
    visible exOps .values c%"X" = some 4 := by decide

/-! ### C06 -/

/-- C06: after every history (including imports of malformed data), every visible definition is
recorded, with the same value, under some file. -/
theorem C06_attributed (ops : List (Op V)) (k : Kind) (n : Str) (v : V)
    (h : dget ((runOps Store.empty ops).defs k) n = some v) :
    ∃ f, recorded (runOps Store.empty ops) f k n = some v := by
  have key : ∀ k n v, dget ((runOps Store.empty ops).defs k) n = some v →
      ∃ f, recorded (runOps Store.empty ops) f k n = some v := by
    apply runOps_inv (P := fun s : Store V => ∀ k n v, dget (s.defs k) n = some v →
      ∃ f, recorded s f k n = some v)
    · intro s k n v hs k' n' v' h
      rw [defs_addDef] at h
      by_cases hh : k = k' ∧ n = n'
      · rw [if_pos hh] at h; injection h with h; subst h
        exact ⟨baseOf s.cur, by rw [recorded_addDef, if_pos ⟨rfl, hh⟩]⟩
      · rw [if_neg hh] at h
        obtain ⟨f, hf⟩ := hs k' n' v' h
        exact ⟨f, by rw [recorded_addDef, if_neg (fun x => hh x.2)]; exact hf⟩
    · intro s k n hs k' n' v' h
      rw [defs_remDef] at h
      by_cases hh : k = k' ∧ n = n'
      · rw [if_pos hh] at h; cases h
      · rw [if_neg hh] at h
        obtain ⟨f, hf⟩ := hs k' n' v' h
        exact ⟨f, by rw [recorded_remDef, if_neg (fun x => hh ⟨x.2.1, x.2.2.1⟩)]; exact hf⟩
    · intro s f hs; exact hs
    · intro k n v h; simp [Store.empty] at h
  exact key k n v h

example : dget ((runOps Store.empty exOps).defs .values) c%"X" = some 4 := by decide

/-- The converse fails: a macro removed in another file than the one defining it stays recorded under
the defining file although it is no longer visible. -/
theorem C06_stale_record :
    dget ((runOps Store.empty exOps).defs .macros) c%"X" = none ∧
    recorded (runOps Store.empty exOps) (some c%"a.h") .macros c%"X" = some 1 := by decide

/-! ### C07 -/

theorem mem_find (s : Store V) (name : Str) (f : Option Str) (k : Kind) :
    (f, k) ∈ find s name ↔ ∃ e, (f, e) ∈ s.fileDefs ∧ ∃ v, (name, v) ∈ e k := by
  unfold find
  simp only [List.mem_flatMap]
  constructor
  · rintro ⟨⟨f', e⟩, he, k', _, ⟨n, v⟩, hv, hm⟩
    split at hm
    · rename_i hn
      simp only [List.mem_singleton, Prod.mk.injEq] at hm
      obtain ⟨rfl, rfl⟩ := hm
      simp only at hn
      exact ⟨e, he, v, hn ▸ hv⟩
    · simp at hm
  · rintro ⟨e, he, v, hv⟩
    exact ⟨(f, e), he, k, mem_dataList k, (name, v), hv, by simp⟩

/-- C07 (sound and complete): `find(name)` lists exactly the (file, kind) pairs in which the name is
recorded, for every reachable state. -/
theorem C07_find (ops : List (Op V)) (name : Str) (f : Option Str) (k : Kind) :
    (f, k) ∈ find (runOps (Store.empty : Store V) ops) name ↔
      (recorded (runOps Store.empty ops) f k name).isSome := by
  have hw : WFStore (runOps (Store.empty : Store V) ops) := WFStore.empty.run ops
  rw [mem_find]
  unfold recorded
  constructor
  · rintro ⟨e, he, v, hv⟩
    rw [dget_of_mem hw.files he]
    simp [dget_of_mem (hw.names _ he k) hv]
  · intro h
    cases hg : dget (runOps Store.empty ops).fileDefs f with
    | none => simp [hg] at h
    | some e =>
      simp only [hg, Option.bind_some] at h
      cases hv : dget (e k) name with
      | none => simp [hv] at h
      | some v => exact ⟨e, dget_some_mem hg, v, dget_some_mem hv⟩

theorem nodup_flatMap_aux {α β : Type} (l : List α) (g : α → List β)
    (h1 : ∀ a ∈ l, (g a).Nodup) (h2 : l.Pairwise fun a b => ∀ x ∈ g a, x ∉ g b) :
    (l.flatMap g).Nodup := by
  induction l with
  | nil => simp
  | cons a l ih =>
    rw [List.flatMap_cons, List.nodup_append]
    rw [List.pairwise_cons] at h2
    refine ⟨h1 a (by simp), ih (fun b hb => h1 b (by simp [hb])) h2.2, ?_⟩
    intro x hx y hy e
    subst e
    obtain ⟨b, hb, hxb⟩ := List.mem_flatMap.1 hy
    exact h2.1 b hb x hx hxb

/-- C07 (no repetition): each (file, kind) pair is listed once. -/
theorem C07_nodup (ops : List (Op V)) (name : Str) :
    (find (runOps (Store.empty : Store V) ops) name).Nodup := by
  have hw : WFStore (runOps (Store.empty : Store V) ops) := WFStore.empty.run ops
  unfold find
  generalize runOps (Store.empty : Store V) ops = s at hw
  apply nodup_flatMap_aux
  · intro p hp
    apply nodup_flatMap_aux
    · intro k _
      have hn := hw.names p hp k
      generalize p.2 k = d at hn
      clear hp
      unfold DNodup dkeys at hn
      rw [List.nodup_iff_pairwise_ne, List.pairwise_map] at hn
      apply nodup_flatMap_aux
      · intro e _; split <;> simp
      · refine hn.imp ?_
        intro a b hab x hx hy
        split at hx
        · split at hy
          · rename_i h1 h2; exact hab (h1.trans h2.symm)
          · simp at hy
        · simp at hx
    · have : dataList.Pairwise (· ≠ ·) := by decide
      refine this.imp ?_
      intro a b hab x hx hy
      obtain ⟨e, _, hx⟩ := List.mem_flatMap.1 hx
      obtain ⟨e', _, hy⟩ := List.mem_flatMap.1 hy
      split at hx
      · split at hy
        · simp at hx hy; rw [hx] at hy; exact hab (by simpa using hy)
        · simp at hy
      · simp at hx
  · have hf := hw.files
    unfold DNodup dkeys at hf
    rw [List.nodup_iff_pairwise_ne, List.pairwise_map] at hf
    refine hf.imp ?_
    intro a b hab x hx hy
    obtain ⟨k, _, hx⟩ := List.mem_flatMap.1 hx
    obtain ⟨k', _, hy⟩ := List.mem_flatMap.1 hy
    obtain ⟨e, _, hx⟩ := List.mem_flatMap.1 hx
    obtain ⟨e', _, hy⟩ := List.mem_flatMap.1 hy
    split at hx
    · split at hy
      · simp at hx hy; rw [hx] at hy; simp at hy; exact hab hy.1
      · simp at hy
    · simp at hx

/-- C07 (visible names are found). -/
theorem C07_visible_found (ops : List (Op V)) (k : Kind) (n : Str) (v : V)
    (h : dget ((runOps Store.empty ops).defs k) n = some v) :
    ∃ f, (f, k) ∈ find (runOps (Store.empty : Store V) ops) n := by
  obtain ⟨f, hf⟩ := C06_attributed ops k n v h
  exact ⟨f, (C07_find ops n f k).2 (by simp [hf])⟩

/-- C07 with a compiled pattern: exactly the recorded names that match. -/
theorem C07_find_pattern (ops : List (Op V)) (m : Str → Bool) (f : Option Str) (k : Kind) (n : Str) :
    (f, k, n) ∈ findMatch (runOps (Store.empty : Store V) ops) m ↔
      m n = true ∧ (recorded (runOps Store.empty ops) f k n).isSome := by
  have hfind := C07_find ops n f k
  rw [← hfind, mem_find]
  unfold findMatch
  simp only [List.mem_flatMap]
  constructor
  · rintro ⟨⟨f', e⟩, he, k', _, ⟨n', v⟩, hv, hm⟩
    split at hm
    · rename_i hn
      simp only [List.mem_singleton, Prod.mk.injEq] at hm
      obtain ⟨rfl, rfl, rfl⟩ := hm
      exact ⟨hn, e, he, v, hv⟩
    · simp at hm
  · rintro ⟨hmn, e, he, v, hv⟩
    exact ⟨(f, e), he, k, mem_dataList k, (n, v), hv, by simp [hmn]⟩

example : find (runOps Store.empty exOps) c%"X" =
    [(some c%"a.h", .macros), (some c%"b.h", .values)] := by decide

/-! ### C08 -/

/-- C08: importing well-formed data never raises; it makes every recorded (kind, name) visible with
the value of the last file recording it, leaves everything else untouched, and keeps the file
attribution. -/
theorem C08_import (s : Store V) (data : RawDefs V) (h : GoodData data) :
    (importDict s data).2 = none ∧
    (∀ k n, dget ((importDict s data).1.defs k) n = (lastRec data k n).or (dget (s.defs k) n)) ∧
    (∀ f k n, recorded (importDict s data).1 f k n = (recAt data f k n).or (recorded s f k n)) :=
  ⟨importDict_ok s data h, fun k n => defs_importDict s data h k n,
   fun f k n => recorded_importDict s data h f k n⟩

/-- C08: what a parser exports (its `file_defs`, after any history) is well-formed data. -/
theorem C08_export_good (ops : List (Op V)) :
    GoodData (rawOf (runOps (Store.empty : Store V) ops).fileDefs) := by
  have hw : WFStore (runOps (Store.empty : Store V) ops) := WFStore.empty.run ops
  refine ⟨?_, ?_, ?_⟩
  · intro p hp k
    obtain ⟨q, hq, rfl⟩ := List.mem_map.1 hp
    exact ⟨_, rfl, hw.names q hq k⟩
  · have := hw.files
    simpa [DNodup, dkeys, rawOf, List.map_map, Function.comp_def] using this
  · intro p hp
    obtain ⟨q, hq, rfl⟩ := List.mem_map.1 hp
    exact hw.base q hq

theorem dget_rawOf (fd : Dict (Option Str) (KDefs V)) (f : Option Str) :
    dget (rawOf fd) f = (dget fd f).map fun e k => some (e k) := by
  induction fd with
  | nil => rfl
  | cons p fd ih =>
    obtain ⟨g, e⟩ := p
    simp only [rawOf, List.map_cons, dget_cons] at ih ⊢
    split
    · rfl
    · exact ih

/-- C08 (`copy_from`): copying from a parser with any history. -/
theorem C08_copy_from (s : Store V) (ops : List (Op V)) (f : Option Str) (k : Kind) (n : Str) :
    recorded (importDict s (rawOf (runOps Store.empty ops).fileDefs)).1 f k n =
      (recorded (runOps Store.empty ops) f k n).or (recorded s f k n) := by
  rw [(C08_import s _ (C08_export_good ops)).2.2]
  congr 1
  unfold recAt recorded recIn
  rw [dget_rawOf]
  cases dget (runOps Store.empty ops).fileDefs f <;> rfl

example : lastRec (rawOf (runOps Store.empty exOps).fileDefs) .macros c%"Y" = some 2 ∧
    lastRec (rawOf (runOps Store.empty exOps).fileDefs) .values c%"X" = some 4 := by decide

/-! ### C09 -/

/-- C09: importing the same data a second time changes no lookup. -/
theorem C09_idempotent (s : Store V) (data : RawDefs V) (h : GoodData data) :
    let s1 := (importDict s data).1
    let s2 := (importDict s1 data).1
    (∀ k n, dget (s2.defs k) n = dget (s1.defs k) n) ∧
    (∀ f k n, recorded s2 f k n = recorded s1 f k n) := by
  refine ⟨fun k n => ?_, fun f k n => ?_⟩
  · rw [(C08_import _ data h).2.1, (C08_import s data h).2.1]
    cases lastRec data k n <;> simp
  · rw [(C08_import _ data h).2.2, (C08_import s data h).2.2]
    cases recAt data f k n <;> simp

example : GoodData (rawOf (runOps Store.empty exOps).fileDefs) := C08_export_good exOps

end Pyclib
