import Verif.Spec.Store
namespace Pyclib
open Spec
variable {V : Type}

theorem dget_kset (d : KDefs V) (k k' : Kind) (x : Dict Str V) (n : Str) :
    dget (kset d k x k') n = if k' = k then dget x n else dget (d k') n := by
  unfold kset; split <;> simp_all

theorem defs_addDef (s : Store V) (k k' : Kind) (n n' : Str) (v : V) :
    dget ((addDef s k n v).defs k') n' = if k = k' ∧ n = n' then some v else dget (s.defs k') n' := by
  simp only [addDef, dget_kset, dget_dset]
  by_cases hk : k' = k
  · subst hk; by_cases hn : n = n' <;> simp [hn]
  · have : ¬ k = k' := fun h => hk h.symm
    simp [hk, this]

theorem dget_fileEntry (fd : Dict (Option Str) (KDefs V)) (b : Option Str) (k : Kind) (n : Str) :
    dget (fileEntry fd b k) n = (dget fd b).bind fun e => dget (e k) n := by
  unfold fileEntry; cases dget fd b <;> simp

theorem recorded_addDef (s : Store V) (k k' : Kind) (n n' : Str) (v : V) (f : Option Str) :
    recorded (addDef s k n v) f k' n' =
      if baseOf s.cur = f ∧ k = k' ∧ n = n' then some v else recorded s f k' n' := by
  unfold recorded
  simp only [addDef, dget_dset]
  by_cases hf : baseOf s.cur = f
  · subst hf
    simp only [if_true, Option.bind_some, dget_kset, dget_dset, dget_fileEntry, true_and]
    by_cases hk : k' = k
    · subst hk; by_cases hn : n = n' <;> simp [hn]
    · have : ¬ k = k' := fun h => hk h.symm
      simp [hk, this]
  · simp [hf]

theorem cur_addDef (s : Store V) (k : Kind) (n : Str) (v : V) : (addDef s k n v).cur = s.cur := rfl

theorem defs_remDef (s : Store V) (k k' : Kind) (n n' : Str) :
    dget ((remDef s k n).1.defs k') n' = if k = k' ∧ n = n' then none else dget (s.defs k') n' := by
  have h1 : dget (kset s.defs k (ddel (s.defs k) n) k') n' =
      if k = k' ∧ n = n' then none else dget (s.defs k') n' := by
    rw [dget_kset, dget_ddel]
    by_cases hk : k' = k
    · subst hk; by_cases hn : n = n' <;> simp [hn]
    · have : ¬ k = k' := fun h => hk h.symm
      simp [hk, this]
  unfold remDef
  split
  · simp only
    split
    · exact h1
    · split <;> exact h1
  · rename_i h
    by_cases hh : k = k' ∧ n = n'
    · obtain ⟨rfl, rfl⟩ := hh
      simpa [dhas] using h
    · simp [hh]

theorem recorded_remDef (s : Store V) (k k' : Kind) (n n' : Str) (f : Option Str) :
    recorded (remDef s k n).1 f k' n' =
      if baseOf s.cur = f ∧ k = k' ∧ n = n' ∧ dhas (s.defs k) n = true then none
      else recorded s f k' n' := by
  unfold remDef
  by_cases hh : dhas (s.defs k) n = true
  · simp only [hh, if_true, and_true]
    cases hg : dget s.fileDefs (baseOf s.cur) with
    | none =>
      simp only
      by_cases h : baseOf s.cur = f ∧ k = k' ∧ n = n'
      · obtain ⟨rfl, rfl, rfl⟩ := h
        simp [recorded, hg]
      · simp [recorded, h]
    | some e =>
      simp only
      by_cases he : dhas (e k) n = true
      · simp only [he, if_true, recorded, dget_dset]
        by_cases hf : baseOf s.cur = f
        · subst hf
          simp only [if_true, Option.bind_some, dget_kset, dget_ddel, hg, true_and]
          by_cases hk : k' = k
          · subst hk; by_cases hn : n = n' <;> simp [hn]
          · have : ¬ k = k' := fun h => hk h.symm
            simp [hk, this]
        · simp [hf]
      · simp only [he, Bool.false_eq_true, if_false]
        by_cases h : baseOf s.cur = f ∧ k = k' ∧ n = n'
        · obtain ⟨rfl, rfl, rfl⟩ := h
          simp only [recorded, hg, Option.bind_some, and_self, if_true]
          simpa [dhas] using he
        · simp [recorded, h]
  · simp [hh]

theorem cur_remDef (s : Store V) (k : Kind) (n : Str) : (remDef s k n).1.cur = s.cur := by
  unfold remDef
  split
  · simp only
    split
    · rfl
    · split <;> rfl
  · rfl

/-! ### Imports -/

theorem cur_importNames (s : Store V) (k : Kind) (l : List (Str × V)) :
    (importNames s k l).cur = s.cur := by
  induction l generalizing s with
  | nil => rfl
  | cons p l ih => rw [importNames, ih, cur_addDef]

theorem defs_importNames (s : Store V) (k k' : Kind) (n' : Str) (l : Dict Str V) (h : DNodup l) :
    dget ((importNames s k l).defs k') n' =
      if k = k' then (dget l n').or (dget (s.defs k') n') else dget (s.defs k') n' := by
  induction l generalizing s with
  | nil => simp [importNames]
  | cons p l ih =>
    obtain ⟨n, v⟩ := p
    simp only [DNodup, dkeys, List.map_cons, List.nodup_cons] at h
    rw [importNames, ih _ h.2, defs_addDef]
    by_cases hk : k = k'
    · simp only [hk, if_true, true_and, dget_cons]
      by_cases hn : n = n'
      · subst hn
        have : dget l n = none := dget_none_iff.2 h.1
        simp [this]
      · simp [hn]
    · simp [hk]

theorem recorded_importNames (s : Store V) (k k' : Kind) (n' : Str) (f : Option Str) (l : Dict Str V)
    (h : DNodup l) :
    recorded (importNames s k l) f k' n' =
      if baseOf s.cur = f ∧ k = k' then (dget l n').or (recorded s f k' n') else recorded s f k' n' := by
  induction l generalizing s with
  | nil => simp [importNames]
  | cons p l ih =>
    obtain ⟨n, v⟩ := p
    simp only [DNodup, dkeys, List.map_cons, List.nodup_cons] at h
    rw [importNames, ih _ h.2, recorded_addDef, cur_addDef]
    by_cases hf : baseOf s.cur = f
    · by_cases hk : k = k'
      · simp only [hf, hk, and_self, if_true, true_and, dget_cons]
        by_cases hn : n = n'
        · subst hn
          have : dget l n = none := dget_none_iff.2 h.1
          simp [this]
        · simp [hn]
      · simp [hk]
    · simp [hf]

theorem importKinds_ok (s : Store V) (d : Kind → Option (Dict Str V)) (ks : List Kind)
    (h : ∀ k, ∃ names, d k = some names ∧ DNodup names) :
    (importKinds s d ks).2 = none ∧ (importKinds s d ks).1.cur = s.cur := by
  induction ks generalizing s with
  | nil => exact ⟨rfl, rfl⟩
  | cons k ks ih =>
    obtain ⟨names, hd, _⟩ := h k
    simp only [importKinds, hd]
    rw [(ih _).2, cur_importNames]
    exact ⟨(ih _).1, rfl⟩

theorem defs_importKinds (s : Store V) (d : Kind → Option (Dict Str V)) (ks : List Kind)
    (h : ∀ k, ∃ names, d k = some names ∧ DNodup names) (k' : Kind) (n' : Str) :
    dget ((importKinds s d ks).1.defs k') n' =
      if k' ∈ ks then (recIn d k' n').or (dget (s.defs k') n') else dget (s.defs k') n' := by
  induction ks generalizing s with
  | nil => simp [importKinds]
  | cons k ks ih =>
    obtain ⟨names, hd, hn⟩ := h k
    simp only [importKinds, hd, ih]
    rw [defs_importNames _ _ _ _ _ hn]
    by_cases hk : k = k'
    · subst hk
      simp only [if_true, List.mem_cons, true_or, recIn, hd, Option.bind_some]
      split
      · cases dget names n' <;> simp
      · rfl
    · have : ¬ k' = k := fun h => hk h.symm
      simp [hk, this]

theorem recorded_importKinds (s : Store V) (d : Kind → Option (Dict Str V)) (ks : List Kind)
    (h : ∀ k, ∃ names, d k = some names ∧ DNodup names) (f : Option Str) (k' : Kind) (n' : Str) :
    recorded (importKinds s d ks).1 f k' n' =
      if baseOf s.cur = f ∧ k' ∈ ks then (recIn d k' n').or (recorded s f k' n')
      else recorded s f k' n' := by
  induction ks generalizing s with
  | nil => simp [importKinds]
  | cons k ks ih =>
    obtain ⟨names, hd, hn⟩ := h k
    simp only [importKinds, hd, ih]
    rw [recorded_importNames _ _ _ _ _ _ hn, cur_importNames]
    by_cases hf : baseOf s.cur = f
    · by_cases hk : k = k'
      · subst hk
        simp only [hf, if_true, List.mem_cons, true_or, recIn, hd, Option.bind_some, and_self, true_and]
        split
        · cases dget names n' <;> simp
        · rfl
      · have : ¬ k' = k := fun h => hk h.symm
        simp [hk, this]
    · simp [hf]

theorem mem_dataList (k : Kind) : k ∈ dataList := by cases k <;> decide

theorem Spec.GoodData.tail {p : Option Str × (Kind → Option (Dict Str V))} {data : RawDefs V}
    (h : GoodData (p :: data)) : GoodData data := by
  refine ⟨fun q hq => h.complete q (by simp [hq]), ?_, fun q hq => h.base q (by simp [hq])⟩
  have := h.files
  simp only [DNodup, dkeys, List.map_cons, List.nodup_cons] at this
  exact this.2

theorem importDict_ok (s : Store V) (data : RawDefs V) (h : GoodData data) :
    (importDict s data).2 = none := by
  induction data generalizing s with
  | nil => rfl
  | cons p data ih =>
    obtain ⟨f, d⟩ := p
    have hc := h.complete (f, d) (by simp)
    have h0 := (importKinds_ok (setFile s f) d dataList hc).1
    rw [importDict]
    generalize hi : importKinds (setFile s f) d dataList = r at h0
    obtain ⟨s', e⟩ := r
    simp only at h0; subst h0
    exact ih _ h.tail

theorem importDict_cons (s : Store V) (f : Option Str) (d : Kind → Option (Dict Str V)) (data : RawDefs V)
    (hc : ∀ k, ∃ names, d k = some names ∧ DNodup names) :
    importDict s ((f, d) :: data) = importDict (importKinds (setFile s f) d dataList).1 data := by
  have h0 := (importKinds_ok (setFile s f) d dataList hc).1
  rw [importDict]
  generalize importKinds (setFile s f) d dataList = r at h0
  obtain ⟨s', e⟩ := r
  simp only at h0; subst h0; rfl

theorem defs_importDict (s : Store V) (data : RawDefs V) (h : GoodData data) (k : Kind) (n : Str) :
    dget ((importDict s data).1.defs k) n = (lastRec data k n).or (dget (s.defs k) n) := by
  induction data generalizing s with
  | nil => simp [importDict, lastRec]
  | cons p data ih =>
    obtain ⟨f, d⟩ := p
    have hc := h.complete (f, d) (by simp)
    rw [importDict_cons _ _ _ _ hc, ih _ h.tail, defs_importKinds _ _ _ hc]
    simp only [mem_dataList, if_true, lastRec, setFile]
    cases lastRec data k n <;> simp

theorem recorded_importDict (s : Store V) (data : RawDefs V) (h : GoodData data) (f : Option Str)
    (k : Kind) (n : Str) :
    recorded (importDict s data).1 f k n = (recAt data f k n).or (recorded s f k n) := by
  induction data generalizing s with
  | nil => simp [importDict, recAt]
  | cons p data ih =>
    obtain ⟨g, d⟩ := p
    have hc := h.complete (g, d) (by simp)
    have hb : baseOf g = g := h.base (g, d) (by simp)
    rw [importDict_cons _ _ _ _ hc, ih _ h.tail, recorded_importKinds _ _ _ hc]
    have hs : ∀ f, recorded (setFile s g) f k n = recorded s f k n := fun _ => rfl
    simp only [mem_dataList, and_true, setFile, hb]
    have hs : ∀ f, recorded { s with cur := g } f k n = recorded s f k n := fun _ => rfl
    rw [hs]
    by_cases hf : g = f
    · subst hf
      have hn : dget data g = none := by
        have := h.files
        simp only [DNodup, dkeys, List.map_cons, List.nodup_cons] at this
        exact dget_none_iff.2 this.1
      simp [recAt, hn, dget_cons]
    · simp [recAt, dget_cons, hf]

theorem recorded_setFile (s : Store V) (g f : Option Str) (k n) :
    recorded (setFile s g) f k n = recorded s f k n := rfl

/-! ### Invariants of all reachable states -/

/-- Well-formed tables: no duplicate keys anywhere, file keys are base names. -/
structure WFStore (s : Store V) : Prop where
  defs : ∀ k, DNodup (s.defs k)
  files : DNodup s.fileDefs
  names : ∀ p ∈ s.fileDefs, ∀ k, DNodup (p.2 k)
  base : ∀ p ∈ s.fileDefs, baseOf p.1 = p.1

theorem basename_noslash : ∀ s : Str, '/' ∉ basename s := by
  intro s
  induction s with
  | nil => simp [basename]
  | cons c s ih =>
    rw [basename]
    split
    · exact ih
    · rename_i h
      split
      · exact h
      · rename_i hc
        simp only [List.mem_cons, not_or]
        exact ⟨fun e => hc e.symm, h⟩

theorem basename_of_noslash {s : Str} (h : '/' ∉ s) : basename s = s := by
  cases s with
  | nil => rfl
  | cons c s =>
    simp only [List.mem_cons, not_or] at h
    rw [basename, if_neg h.2, if_neg (fun e => h.1 e.symm)]

theorem baseOf_baseOf (f : Option Str) : baseOf (baseOf f) = baseOf f := by
  cases f with
  | none => rfl
  | some s => simp [baseOf, basename_of_noslash (basename_noslash s)]

theorem mem_dset {κ α : Type} [DecidableEq κ] {d : Dict κ α} {k : κ} {v : α} {p : κ × α}
    (h : p ∈ dset d k v) : p = (k, v) ∨ p ∈ d := by
  induction d with
  | nil => simp [dset] at h; exact Or.inl h
  | cons q d ih =>
    obtain ⟨k', v'⟩ := q
    simp only [dset] at h
    split at h
    · rcases List.mem_cons.1 h with h | h
      · exact Or.inl h
      · exact Or.inr (List.mem_cons_of_mem _ h)
    · rcases List.mem_cons.1 h with h | h
      · exact Or.inr (by simp [h])
      · rcases ih h with h | h
        · exact Or.inl h
        · exact Or.inr (List.mem_cons_of_mem _ h)

theorem WFStore.empty : WFStore (Store.empty : Store V) :=
  ⟨fun _ => by simp [Store.empty, DNodup, dkeys], by simp [Store.empty, DNodup, dkeys],
   by simp [Store.empty], by simp [Store.empty]⟩

theorem WFStore.addDef {s : Store V} (h : WFStore s) (k : Kind) (n : Str) (v : V) :
    WFStore (addDef s k n v) := by
  have he : ∀ k', DNodup (fileEntry s.fileDefs (baseOf s.cur) k') := by
    intro k'
    unfold fileEntry
    cases hg : dget s.fileDefs (baseOf s.cur) with
    | none => simp [DNodup, dkeys]
    | some e => exact h.names _ (dget_some_mem hg) k'
  refine ⟨?_, h.files.dset _ _, ?_, ?_⟩
  · intro k'
    simp only [Pyclib.addDef, kset]
    split
    · exact (h.defs k).dset _ _
    · exact h.defs k'
  · intro p hp k'
    rcases mem_dset hp with rfl | hp
    · simp only [kset]
      split
      · exact (he k).dset _ _
      · exact he k'
    · exact h.names p hp k'
  · intro p hp
    rcases mem_dset hp with rfl | hp
    · exact baseOf_baseOf _
    · exact h.base p hp

theorem WFStore.remDef {s : Store V} (h : WFStore s) (k : Kind) (n : Str) :
    WFStore (remDef s k n).1 := by
  have h1 : ∀ k', DNodup (kset s.defs k (ddel (s.defs k) n) k') := by
    intro k'
    simp only [kset]
    split
    · exact (h.defs k).ddel _
    · exact h.defs k'
  unfold Pyclib.remDef
  split
  · simp only
    split
    · exact ⟨h1, h.files, h.names, h.base⟩
    · rename_i e hg
      split
      · refine ⟨h1, h.files.dset _ _, ?_, ?_⟩
        · intro p hp k'
          rcases mem_dset hp with rfl | hp
          · simp only [kset]
            split
            · exact (h.names _ (dget_some_mem hg) k).ddel _
            · exact h.names _ (dget_some_mem hg) k'
          · exact h.names p hp k'
        · intro p hp
          rcases mem_dset hp with rfl | hp
          · exact baseOf_baseOf _
          · exact h.base p hp
      · exact ⟨h1, h.files, h.names, h.base⟩
  · exact h

theorem WFStore.setFile {s : Store V} (h : WFStore s) (f : Option Str) : WFStore (setFile s f) :=
  ⟨h.defs, h.files, h.names, h.base⟩

/-- A property kept by `add_def` and file switches is kept by `import_dict`. -/
theorem importDict_inv (P : Store V → Prop) (ha : ∀ s k n v, P s → P (addDef s k n v))
    (hf : ∀ s f, P s → P (setFile s f)) (s : Store V) (data : RawDefs V) (h : P s) :
    P (importDict s data).1 := by
  have hn : ∀ (s : Store V) (k : Kind) l, P s → P (importNames s k l) := by
    intro s k l hs
    induction l generalizing s with
    | nil => exact hs
    | cons p l ih => exact ih _ (ha _ _ _ _ hs)
  have hk : ∀ (s : Store V) d ks, P s → P (importKinds s d ks).1 := by
    intro s d ks hs
    induction ks generalizing s with
    | nil => exact hs
    | cons k ks ih =>
      rw [importKinds]
      split
      · exact hs
      · exact ih _ (hn _ _ _ hs)
  induction data generalizing s with
  | nil => exact h
  | cons p data ih =>
    obtain ⟨f, d⟩ := p
    rw [importDict]
    have := hk _ d dataList (hf s f h)
    generalize importKinds (Pyclib.setFile s f) d dataList = r at this
    obtain ⟨s', e⟩ := r
    cases e with
    | none => exact ih _ this
    | some e => exact this

/-- A property kept by the primitive operations holds after every history. -/
theorem runOps_inv (P : Store V → Prop) (ha : ∀ s k n v, P s → P (addDef s k n v))
    (hr : ∀ s k n, P s → P (remDef s k n).1)
    (hf : ∀ s f, P s → P (setFile s f)) (s : Store V) (ops : List (Op V)) (h : P s) :
    P (runOps s ops) := by
  induction ops generalizing s with
  | nil => exact h
  | cons o os ih =>
    apply ih
    cases o with
    | add k n v => exact ha _ _ _ _ h
    | rem k n => exact hr _ _ _ h
    | file f => exact hf _ _ h
    | imp d => exact importDict_inv P ha hf _ _ h

theorem WFStore.run {s : Store V} (h : WFStore s) (ops : List (Op V)) : WFStore (runOps s ops) :=
  runOps_inv _ (fun _ k n v h => h.addDef k n v) (fun _ k n h => h.remDef k n)
    (fun _ f h => h.setFile f) s ops h

end Pyclib
