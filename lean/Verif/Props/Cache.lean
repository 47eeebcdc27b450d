import Verif.Model.Cache
import Verif.Props.Store
/-
C10 – C14: the cache.
-/
namespace Pyclib
open Spec
variable {V : Type}

/-! ### C10 -/

/-- What a fresh parser with the same keyword arguments shows after loading the cache written by a
parser in state `w`. -/
def reload (kw : List (Kind × Str × V)) (w : Store V) : Store V :=
  (importDict (initStore kw) (rawOf w.fileDefs)).1

/-- The base name is not yet known, or is that of the most recently added file. -/
def FreshOrLast (s : Store V) (b : Option Str) : Prop :=
  b ∉ dkeys s.fileDefs ∨ (dkeys s.fileDefs).getLast? = some b

/-- Histories for which the round trip is exact: primitive operations where a file is not resumed
after another one, and a name is only removed in a file if no other file records it.  -/
def GoodRun : Store V → List (Op V) → Prop
  | _, [] => True
  | s, .add k n v :: os => GoodRun (addDef s k n v) os
  | s, .rem k n :: os => s.cur ≠ none ∧ (∀ f, f ≠ baseOf s.cur → recorded s f k n = none) ∧
      GoodRun (remDef s k n).1 os
  | s, .file f :: os => FreshOrLast s (baseOf f) ∧ GoodRun (setFile s f) os
  | _, .imp _ :: _ => False

theorem lastRec_snoc (l : RawDefs V) (b : Option Str) (d : Kind → Option (Dict Str V)) (k : Kind) (n : Str) :
    lastRec (l ++ [(b, d)]) k n = (recIn d k n).or (lastRec l k n) := by
  induction l with
  | nil => simp [lastRec]
  | cons p l ih =>
    obtain ⟨g, e⟩ := p
    simp only [List.cons_append, lastRec, ih]
    cases recIn d k n <;> simp

theorem dset_last {κ α : Type} [DecidableEq κ] (fd : Dict κ α) (b : κ) (e x : α) (h : b ∉ dkeys fd) :
    dset (fd ++ [(b, e)]) b x = fd ++ [(b, x)] := by
  induction fd with
  | nil => simp [dset]
  | cons p fd ih =>
    obtain ⟨g, y⟩ := p
    simp only [dkeys, List.map_cons, List.mem_cons, not_or] at h
    have : ¬ g = b := fun e => h.1 e.symm
    simp only [List.cons_append, dset, this, if_false, List.cons.injEq, true_and]
    exact ih h.2

theorem dset_new {κ α : Type} [DecidableEq κ] (fd : Dict κ α) (b : κ) (x : α) (h : b ∉ dkeys fd) :
    dset fd b x = fd ++ [(b, x)] := by
  induction fd with
  | nil => simp [dset]
  | cons p fd ih =>
    obtain ⟨g, y⟩ := p
    simp only [dkeys, List.map_cons, List.mem_cons, not_or] at h
    have : ¬ g = b := fun e => h.1 e.symm
    simp only [dset, this, if_false, List.cons_append, List.cons.injEq, true_and]
    exact ih h.2

theorem dget_last {κ α : Type} [DecidableEq κ] (fd : Dict κ α) (b : κ) (e : α) (h : b ∉ dkeys fd) :
    dget (fd ++ [(b, e)]) b = some e := by
  induction fd with
  | nil => simp [dget]
  | cons p fd ih =>
    obtain ⟨g, y⟩ := p
    simp only [dkeys, List.map_cons, List.mem_cons, not_or] at h
    have : ¬ g = b := fun e => h.1 e.symm
    simp only [List.cons_append, dget, this, if_false]
    exact ih h.2

/-- Decomposition of `file_defs` around the current file, when it is new or last. -/
theorem freshOrLast_split {s : Store V} {b : Option Str} (hw : DNodup s.fileDefs) (h : FreshOrLast s b) :
    ∃ fd0 : Dict (Option Str) (KDefs V), b ∉ dkeys fd0 ∧
      (∀ x, dset s.fileDefs b x = fd0 ++ [(b, x)]) ∧
      ((s.fileDefs = fd0 ∧ dget s.fileDefs b = none) ∨
       ∃ e, s.fileDefs = fd0 ++ [(b, e)] ∧ dget s.fileDefs b = some e) := by
  rcases h with h | h
  · exact ⟨s.fileDefs, h, fun x => dset_new _ _ _ h, Or.inl ⟨rfl, dget_none_iff.2 h⟩⟩
  · unfold dkeys at h
    rw [List.getLast?_map] at h
    cases hl : s.fileDefs.getLast? with
    | none => simp [hl] at h
    | some p =>
      obtain ⟨g, e⟩ := p
      simp [hl] at h; subst h
      obtain ⟨fd0, hfd⟩ := List.getLast?_eq_some_iff.1 hl
      have hn : g ∉ dkeys fd0 := by
        unfold DNodup dkeys at hw
        rw [hfd, List.map_append, List.nodup_append] at hw
        intro hm
        exact hw.2.2 g hm g (by simp) rfl
      refine ⟨fd0, hn, ?_, Or.inr ⟨e, hfd, ?_⟩⟩
      · intro x; rw [hfd]; exact dset_last _ _ _ _ hn
      · rw [hfd]; exact dget_last _ _ _ hn

theorem rawOf_snoc (fd : Dict (Option Str) (KDefs V)) (b : Option Str) (e : KDefs V) :
    rawOf (fd ++ [(b, e)]) = rawOf fd ++ [(b, fun k => some (e k))] := by simp [rawOf]

theorem lastRec_none_of_recorded {fd : Dict (Option Str) (KDefs V)} {k : Kind} {n : Str}
    (h : ∀ p ∈ fd, dget (p.2 k) n = none) : lastRec (rawOf fd) k n = none := by
  induction fd with
  | nil => rfl
  | cons p fd ih =>
    obtain ⟨g, e⟩ := p
    have h1 := ih (fun q hq => h q (by simp [hq]))
    have h2 := h (g, e) (by simp)
    simp only [rawOf, List.map_cons, lastRec] at h1 ⊢
    rw [h1]
    simp [recIn]; exact h2

/-- The invariant behind C10. -/
structure RTInv (kw : Store V) (s : Store V) : Prop where
  wf : WFStore s
  last : ∀ k n, dget (s.defs k) n = lastRec (rawOf s.fileDefs) k n
  cur : FreshOrLast s (baseOf s.cur)
  kw : ∀ k n, (dget (kw.defs k) n).isSome → (recorded s none k n).isSome

theorem freshOrLast_dset {s : Store V} {b : Option Str} (hw : DNodup s.fileDefs) (h : FreshOrLast s b)
    (x : KDefs V) : (dkeys (dset s.fileDefs b x)).getLast? = some b := by
  obtain ⟨fd0, _, hd, _⟩ := freshOrLast_split hw h
  rw [hd]; simp [dkeys]

theorem RTInv.addDef {kw s : Store V} (h : RTInv kw s) (k : Kind) (n : Str) (v : V) :
    RTInv kw (addDef s k n v) := by
  obtain ⟨fd0, hb, hd, hc⟩ := freshOrLast_split h.wf.files h.cur
  refine ⟨h.wf.addDef k n v, ?_, ?_, ?_⟩
  · intro k' n'
    rw [defs_addDef]
    show _ = lastRec (rawOf (dset s.fileDefs (baseOf s.cur) _)) k' n'
    rw [hd, rawOf_snoc, lastRec_snoc]
    simp only [recIn, Option.bind_some, dget_kset, dget_dset, dget_fileEntry]
    have hold := h.last k' n'
    have hsplit : lastRec (rawOf s.fileDefs) k' n' =
        ((dget s.fileDefs (baseOf s.cur)).bind fun e => dget (e k') n').or (lastRec (rawOf fd0) k' n') := by
      rcases hc with ⟨h1, h2⟩ | ⟨e, h1, h2⟩
      · rw [h2, h1]; rfl
      · rw [h2, h1, rawOf_snoc, lastRec_snoc]; rfl
    rw [hold, hsplit]
    by_cases hk : k' = k
    · subst hk; by_cases hn : n = n' <;> simp [hn]
    · have : ¬ k = k' := fun h => hk h.symm
      simp [hk, this]
  · exact Or.inr (freshOrLast_dset h.wf.files h.cur _)
  · intro k' n' hk
    rw [recorded_addDef]
    split
    · rfl
    · exact h.kw k' n' hk

theorem recorded_split {s : Store V} {b : Option Str} {fd0 : Dict (Option Str) (KDefs V)} {k : Kind} {n : Str}
    (hw : WFStore s) (hb : b ∉ dkeys fd0)
    (hc : (s.fileDefs = fd0 ∧ dget s.fileDefs b = none) ∨
       ∃ e, s.fileDefs = fd0 ++ [(b, e)] ∧ dget s.fileDefs b = some e)
    (hr : ∀ f, f ≠ b → recorded s f k n = none) : lastRec (rawOf fd0) k n = none := by
  apply lastRec_none_of_recorded
  intro p hp
  obtain ⟨g, e⟩ := p
  have hm : (g, e) ∈ s.fileDefs := by
    rcases hc with ⟨h1, _⟩ | ⟨e', h1, _⟩ <;> rw [h1]
    · exact hp
    · exact List.mem_append_left _ hp
  have hg : g ≠ b := by
    rintro rfl
    exact hb (List.mem_map.2 ⟨(g, e), hp, rfl⟩)
  have := hr g hg
  unfold recorded at this
  rw [dget_of_mem hw.files hm] at this
  exact this

theorem RTInv.remDef {kw s : Store V} (h : RTInv kw s) (k : Kind) (n : Str) (hcur : s.cur ≠ none)
    (hr : ∀ f, f ≠ baseOf s.cur → recorded s f k n = none) : RTInv kw (remDef s k n).1 := by
  obtain ⟨fd0, hb, hd, hc⟩ := freshOrLast_split h.wf.files h.cur
  have hl0 := recorded_split h.wf hb hc hr
  have hbase : baseOf s.cur ≠ none := by
    intro hh
    cases hcc : s.cur with
    | none => exact hcur hcc
    | some f => simp [baseOf, hcc] at hh
  have hsplit : ∀ k' n', lastRec (rawOf s.fileDefs) k' n' =
      ((dget s.fileDefs (baseOf s.cur)).bind fun e => dget (e k') n').or (lastRec (rawOf fd0) k' n') := by
    intro k' n'
    rcases hc with ⟨h1, h2⟩ | ⟨e, h1, h2⟩
    · rw [h2, h1]; rfl
    · rw [h2, h1, rawOf_snoc, lastRec_snoc]; rfl
  refine ⟨h.wf.remDef k n, ?_, ?_, ?_⟩
  · intro k' n'
    rw [defs_remDef]
    unfold Pyclib.remDef
    cases hv : dget (s.defs k) n with
    | none =>
      simp only [dhas, hv, Option.isSome_none, Bool.false_eq_true, if_false]
      by_cases hh : k = k' ∧ n = n'
      · obtain ⟨rfl, rfl⟩ := hh
        rw [← h.last, hv]; simp
      · rw [if_neg hh, h.last]
    | some v =>
      simp only [dhas, hv, Option.isSome_some, if_true]
      have hlast := h.last k n
      rw [hv, hsplit, hl0] at hlast
      cases he : dget s.fileDefs (baseOf s.cur) with
      | none => simp [he] at hlast
      | some e =>
        simp [he] at hlast
        simp only [← hlast, Option.isSome_some, if_true]
        rw [hd, rawOf_snoc, lastRec_snoc]
        simp only [recIn, Option.bind_some, dget_kset, dget_ddel]
        by_cases hh : k = k' ∧ n = n'
        · obtain ⟨rfl, rfl⟩ := hh
          simp [hl0]
        · rw [if_neg hh, h.last, hsplit, he]
          by_cases hk : k' = k
          · subst hk
            have : ¬ n = n' := fun e => hh ⟨rfl, e⟩
            simp [this]
          · simp [hk]
  · show FreshOrLast _ _
    rw [cur_remDef]
    unfold Pyclib.remDef
    split
    · simp only
      split
      · exact h.cur
      · split
        · exact Or.inr (freshOrLast_dset h.wf.files h.cur _)
        · exact h.cur
    · exact h.cur
  · intro k' n' hk
    rw [recorded_remDef, if_neg (fun x => hbase x.1)]
    exact h.kw k' n' hk

theorem RTInv.run {kw s : Store V} (h : RTInv kw s) (ops : List (Op V)) (hg : GoodRun s ops) :
    RTInv kw (runOps s ops) := by
  induction ops generalizing s with
  | nil => exact h
  | cons o os ih =>
    cases o with
    | add k n v => exact ih (h.addDef k n v) hg
    | rem k n => exact ih (h.remDef k n hg.1 hg.2.1) hg.2.2
    | file f => exact ih ⟨h.wf.setFile f, h.last, hg.1, h.kw⟩ hg.2
    | imp d => exact absurd hg (by simp [GoodRun])

theorem addKwargs_spec (kw : List (Kind × Str × V)) (s : Store V) (hcur : s.cur = none) (h : RTInv s s) :
    RTInv (addKwargs s kw) (addKwargs s kw) := by
  induction kw generalizing s with
  | nil => exact h
  | cons p kw ih =>
    obtain ⟨k, n, v⟩ := p
    refine ih (addDef s k n v) hcur ?_
    have h' := h.addDef k n v
    refine ⟨h'.wf, h'.last, h'.cur, ?_⟩
    intro k' n' hk
    rw [recorded_addDef]
    split
    · rfl
    · rename_i hh
      rw [defs_addDef] at hk
      split at hk
      · rename_i h2
        exact absurd ⟨by simp [hcur, baseOf], h2⟩ hh
      · exact h.kw k' n' hk

theorem rtInv_init (kw : List (Kind × Str × V)) : RTInv (initStore kw) (initStore kw) := by
  apply addKwargs_spec
  · rfl
  · refine ⟨WFStore.empty, fun k n => rfl, Or.inl (by simp [Store.empty, dkeys]), ?_⟩
    intro k n h; simp [Store.empty] at h

theorem goodData_rawOf {s : Store V} (hw : WFStore s) : GoodData (rawOf s.fileDefs) := by
  refine ⟨?_, ?_, ?_⟩
  · intro p hp k
    obtain ⟨q, hq, rfl⟩ := List.mem_map.1 hp
    exact ⟨_, rfl, hw.names q hq k⟩
  · have := hw.files
    simpa [DNodup, dkeys, rawOf, List.map_map, Function.comp_def] using this
  · intro p hp
    obtain ⟨q, hq, rfl⟩ := List.mem_map.1 hp
    exact hw.base q hq

theorem lastRec_some_of_recorded {s : Store V} {f : Option Str} {k : Kind} {n : Str}
    (h : (recorded s f k n).isSome) : (lastRec (rawOf s.fileDefs) k n).isSome := by
  unfold recorded at h
  cases hg : dget s.fileDefs f with
  | none => simp [hg] at h
  | some e =>
    have hm := dget_some_mem hg
    simp only [hg, Option.bind_some] at h
    generalize s.fileDefs = fd at hm
    clear hg
    induction fd with
    | nil => simp at hm
    | cons p fd ih =>
      obtain ⟨g, e'⟩ := p
      simp only [rawOf, List.map_cons, lastRec] at ih ⊢
      rcases List.mem_cons.1 hm with h1 | h1
      · injection h1 with h2 h3; subst h3
        cases lastRec (List.map (fun p => (p.1, fun k => some (p.2 k))) fd) k n with
        | none => simpa [recIn] using h
        | some x => simp
      · have := ih h1
        cases hx : lastRec (List.map (fun p => (p.1, fun k => some (p.2 k))) fd) k n with
        | none => simp [hx] at this
        | some x => simp

/-- C10 for the histories described by `GoodRun` (what is missing: names removed in a file other
than the defining one, and files with equal base names; both fail, see below). -/
theorem C10_roundtrip_partial (kw : List (Kind × Str × V)) (ops : List (Op V))
    (hg : GoodRun (initStore kw) ops) (k : Kind) (n : Str) :
    dget ((reload kw (runOps (initStore kw) ops)).defs k) n =
      dget ((runOps (initStore kw) ops).defs k) n := by
  have hi := (rtInv_init kw).run ops hg
  unfold reload
  rw [defs_importDict _ _ (goodData_rawOf hi.wf), hi.last]
  cases hl : lastRec (rawOf (runOps (initStore kw) ops).fileDefs) k n with
  | some v => simp
  | none =>
    simp only [Option.none_or]
    cases hk : dget ((initStore kw).defs k) n with
    | none => rfl
    | some v =>
      have := lastRec_some_of_recorded (hi.kw k n (by simp [hk]))
      simp [hl] at this

/-- C10, all histories: what the reloaded parser shows. -/
theorem C10_reload_value (kw : List (Kind × Str × V)) (ops : List (Op V)) (k : Kind) (n : Str) :
    dget ((reload kw (runOps (initStore kw) ops)).defs k) n =
      (lastRec (rawOf (runOps (initStore kw) ops).fileDefs) k n).or (dget ((initStore kw).defs k) n) :=
  defs_importDict _ _ (goodData_rawOf ((rtInv_init kw).wf.run ops)) k n

/-- C10, all histories: no visible name is lost (although its value may differ). -/
theorem C10_nothing_lost (kw : List (Kind × Str × V)) (ops : List (Op V)) (k : Kind) (n : Str)
    (h : (dget ((runOps (initStore kw) ops).defs k) n).isSome) :
    (dget ((reload kw (runOps (initStore kw) ops)).defs k) n).isSome := by
  have hrun : ∃ ops', initStore kw = runOps Store.empty ops' := by
    have : ∀ (kw : List (Kind × Str × V)) s, ∃ ops', addKwargs s kw = runOps s ops' := by
      intro kw
      induction kw with
      | nil => intro s; exact ⟨[], rfl⟩
      | cons p kw ih =>
        intro s
        obtain ⟨k, n, v⟩ := p
        obtain ⟨ops', h⟩ := ih (addDef s k n v)
        exact ⟨.add k n v :: ops', h⟩
    exact this kw _
  obtain ⟨ops', he⟩ := hrun
  have happ : ∀ (a b : List (Op V)) s, runOps (runOps s a) b = runOps s (a ++ b) := by
    intro a
    induction a with
    | nil => intro b s; rfl
    | cons o a ih => intro b s; exact ih b _
  rw [C10_reload_value]
  cases hv : dget ((runOps (initStore kw) ops).defs k) n with
  | none => simp [hv] at h
  | some v =>
    rw [he, happ] at hv
    obtain ⟨f, hf⟩ := C06_attributed _ k n v hv
    rw [← happ, ← he] at hf
    have := lastRec_some_of_recorded (s := runOps (initStore kw) ops) (f := f) (k := k) (n := n) (by simp [hf])
    cases hx : lastRec (rawOf (runOps (initStore kw) ops).fileDefs) k n with
    | none => simp [hx] at this
    | some x => simp

-- a history meeting the hypothesis of the partial theorem
example : GoodRun (initStore [(Kind.macros, c%"W", 0)])
    [.file (some c%"a.h"), .add .macros c%"X" 1, .rem .macros c%"X", .add .macros c%"X" 2,
     .file (some c%"b.h"), .add .macros c%"Y" 3, .add .macros c%"X" 4] := by
  refine ⟨Or.inl (by decide), by decide, ?_, Or.inl (by decide), trivial⟩
  intro f hf
  simp [recorded, initStore, addKwargs, addDef, Store.empty, setFile, baseOf, fileEntry, kset, dset, dget, basename] at hf ⊢
  split
  · simp_all [kset, dget]
  · have : ¬ some c%"a.h" = f := fun e => hf e.symm
    simp [this]

/-- C10 fails for a macro removed in a later file: it comes back on reload. -/
theorem C10_counterexample_undef :
    let ops : List (Op Nat) := [.file (some c%"a.h"), .add .macros c%"X" 1, .file (some c%"b.h"), .rem .macros c%"X"]
    dget ((runOps (initStore []) ops).defs .macros) c%"X" = none ∧
    dget ((reload [] (runOps (initStore []) ops)).defs .macros) c%"X" = some 1 := by decide

/-- C10 fails for a macro given to the constructor and removed by a header. -/
theorem C10_counterexample_kwargs :
    let kw : List (Kind × Str × Nat) := [(.macros, c%"X", 1)]
    let ops : List (Op Nat) := [.file (some c%"a.h"), .rem .macros c%"X"]
    dget ((runOps (initStore kw) ops).defs .macros) c%"X" = none ∧
    dget ((reload kw (runOps (initStore kw) ops)).defs .macros) c%"X" = some 1 := by decide

/-- C10 fails for two files with the same base name: an older value comes back. -/
theorem C10_counterexample_basename :
    let ops : List (Op Nat) := [.file (some c%"u/x.h"), .add .macros c%"A" 1, .file (some c%"b.h"),
      .add .macros c%"A" 2, .file (some c%"v/x.h"), .add .macros c%"A" 3]
    dget ((runOps (initStore []) ops).defs .macros) c%"A" = some 3 ∧
    dget ((reload [] (runOps (initStore []) ops)).defs .macros) c%"A" = some 2 := by decide

/-! ### C11 – C13 -/

section
variable {O : Type} [DecidableEq O]

/-- C11: with validity checking, a cache older than some existing source is rejected and the parser
is unchanged. -/
theorem C11_stale (modPath : Str → Str) (fs : FS V O) (p : Parser V O) (cache path : Str)
    (info : FileInfo V O) (hp : cachePath modPath fs cache = some path) (hi : fs path = some info)
    (f : Str) (src : FileInfo V O) (hf : f ∈ p.fileOrder) (hs : fs f = some src)
    (hn : info.mtime < src.mtime) :
    loadCache modPath fs p cache true = (p, false) := by
  unfold loadCache
  rw [hp]; simp only [hi]
  rw [if_pos]
  simp only [Bool.true_and, List.any_eq_true]
  exact ⟨f, hf, by simp [newerThan, hs, hn]⟩

omit [DecidableEq O] in
/-- The path read is the given one if it is a file, else the one in the module directory. -/
theorem C11_path (modPath : Str → Str) (fs : FS V O) (cache path : Str) :
    cachePath modPath fs cache = some path ↔
      (path = cache ∧ (fs cache).isSome) ∨
      (path = modPath cache ∧ fs cache = none ∧ (fs (modPath cache)).isSome) := by
  unfold cachePath
  cases h : fs cache with
  | some i =>
    rw [if_pos (by simp)]
    constructor
    · intro h; injection h with h; exact Or.inl ⟨h.symm, rfl⟩
    · rintro (⟨rfl, _⟩ | ⟨_, h, _⟩)
      · rfl
      · cases h
  | none =>
    rw [if_neg (by simp)]
    cases h2 : fs (modPath cache) with
    | some i =>
      rw [if_pos (by simp)]
      constructor
      · intro h; injection h with h; exact Or.inr ⟨h.symm, rfl, rfl⟩
      · rintro (⟨_, h⟩ | ⟨rfl, _, _⟩)
        · cases h
        · rfl
    | none =>
      rw [if_neg (by simp)]
      constructor
      · intro h; cases h
      · rintro (⟨_, h⟩ | ⟨_, _, h⟩) <;> cases h

/-- C11 (missing cache): rejected, parser unchanged. -/
theorem C11_missing (modPath : Str → Str) (fs : FS V O) (p : Parser V O) (cache : Str) (check : Bool)
    (h : cachePath modPath fs cache = none) : loadCache modPath fs p cache check = (p, false) := by
  unfold loadCache; rw [h]

/-- When a cache is accepted: exactly the documented conditions. -/
theorem C12_accept_iff (modPath : Str → Str) (fs : FS V O) (p : Parser V O) (cache : Str) (check : Bool) :
    (loadCache modPath fs p cache check).2 = true ↔
      ∃ path info o v d, cachePath modPath fs cache = some path ∧ fs path = some info ∧
        info.content = .obj o v (some d) ∧ (importDict p.store d).2 = none ∧
        (check = true → (∀ f ∈ p.fileOrder, ∀ src, fs f = some src → src.mtime ≤ info.mtime) ∧
          o = some p.opts ∧ ∃ n, v = some n ∧ cacheVersion ≤ n) := by
  unfold loadCache
  cases hp : cachePath modPath fs cache with
  | none => simp
  | some path =>
    simp only
    cases hi : fs path with
    | none => simp [hi]
    | some info =>
      simp only [Option.some.injEq]
      by_cases hn : (check && p.fileOrder.any (newerThan fs info.mtime)) = true
      · rw [if_pos hn]
        simp only [Bool.and_eq_true, List.any_eq_true] at hn
        obtain ⟨hc, f, hf, hnew⟩ := hn
        constructor
        · intro h; cases h
        · rintro ⟨path', info', o, v, d, rfl, h2, h3, h4, h5⟩
          rw [hi] at h2; injection h2 with h2; subst h2
          exfalso
          unfold newerThan at hnew
          cases hs : fs f with
          | none => simp [hs] at hnew
          | some src =>
            simp [hs] at hnew
            have := (h5 hc).1 f hf src hs
            omega
      · rw [if_neg hn]
        simp only [Bool.and_eq_true, List.any_eq_true, not_and, not_exists] at hn
        have hn' : check = true → ∀ f ∈ p.fileOrder, ∀ src, fs f = some src → src.mtime ≤ info.mtime := by
          intro hc f hf src hs
          have := hn hc f hf
          simp [newerThan, hs] at this; omega
        cases hcont : info.content with
        | unreadable =>
          simp only [loadContent]
          constructor
          · intro h; cases h
          · rintro ⟨path', info', o, v, d, rfl, h2, h3, _⟩
            rw [hi] at h2; injection h2 with h2; subst h2
            rw [hcont] at h3; cases h3
        | obj o v d =>
          have hex : (∃ path_1 info_1 o_1 v_1 d_1, path = path_1 ∧ fs path_1 = some info_1 ∧
              info_1.content = .obj o_1 v_1 (some d_1) ∧ (importDict p.store d_1).2 = none ∧
              (check = true → (∀ f ∈ p.fileOrder, ∀ src, fs f = some src → src.mtime ≤ info_1.mtime) ∧
                o_1 = some p.opts ∧ ∃ n, v_1 = some n ∧ cacheVersion ≤ n)) ↔
              ∃ d1, d = some d1 ∧ (importDict p.store d1).2 = none ∧
                (check = true → o = some p.opts ∧ ∃ n, v = some n ∧ cacheVersion ≤ n) := by
            constructor
            · rintro ⟨path', info', o', v', d', rfl, h2, h3, h4, h5⟩
              rw [hi] at h2; injection h2 with h2; subst h2
              rw [hcont] at h3; injection h3 with h31 h32 h33
              subst h31; subst h32
              exact ⟨d', h33, h4, fun hc => (h5 hc).2⟩
            · rintro ⟨d1, rfl, h4, h5⟩
              exact ⟨path, info, o, v, d1, rfl, hi, hcont, h4, fun hc => ⟨hn' hc, h5 hc⟩⟩
          rw [hex]
          have hrej : contentRejected p.opts check o v = false ↔
              (check = true → o = some p.opts ∧ ∃ n, v = some n ∧ cacheVersion ≤ n) := by
            unfold contentRejected
            cases check with
            | false => simp
            | true =>
              cases o with
              | none => simp
              | some o =>
                by_cases ho : o = p.opts
                · subst ho
                  cases v with
                  | none => simp
                  | some v => simp
                · simp [ho]
          rw [← hrej]
          simp only [loadContent]
          cases hr : contentRejected p.opts check o v with
          | true => simp
          | false =>
            cases d with
            | none => simp
            | some d =>
              simp only [Bool.false_eq_true, if_false, Option.some.injEq, exists_eq_left', and_true]
              generalize importDict p.store d = r
              obtain ⟨s, e⟩ := r
              cases e <;> simp

/-- C12: with validity checking a cache is used only if its options are the parser's and its format
is not older. -/
theorem C12_options_version (modPath : Str → Str) (fs : FS V O) (p : Parser V O) (cache path : Str)
    (info : FileInfo V O) (o : Option O) (v : Option Int) (d : Option (RawDefs V))
    (hp : cachePath modPath fs cache = some path) (hi : fs path = some info)
    (hc : info.content = .obj o v d)
    (hbad : o ≠ some p.opts ∨ v = none ∨ ∃ n, v = some n ∧ n < cacheVersion) :
    loadCache modPath fs p cache true = (p, false) := by
  unfold loadCache
  rw [hp]; simp only [hi]
  split
  · rfl
  · rw [hc]
    have hrej : contentRejected p.opts true o v = true := by
      unfold contentRejected
      cases o with
      | none => rfl
      | some o =>
        by_cases ho : o = p.opts
        · subst ho
          rcases hbad with h | rfl | ⟨n, rfl, hn⟩
          · exact absurd rfl h
          · simp
          · simp [hn]
        · simp [ho]
    simp [loadContent, hrej]

/-- C12 (coverage of the recorded options): keyword arguments, file base names and replacements are
recorded … -/
theorem C12_opts_cover_partial [DecidableEq V] (a b : CtorArgs V) (h : initOpts a = initOpts b) :
    a.kwargs = b.kwargs ∧ a.files.map basename = b.files.map basename ∧
      (a.files ≠ [] → a.replace = b.replace) := by
  simp only [initOpts, InitOpts.mk.injEq] at h
  refine ⟨h.1, h.2.1, ?_⟩
  intro hne
  have hr := h.2.2
  have key : ∀ (fs : List Str) (r : Option (List (Str × Str))) (d : Dict Str (Option (List (Str × Str)))) (x : Str),
      x ∈ fs.map basename → dget (fs.foldl (fun d f => dset d (basename f) r) d) x = some r := by
    intro fs r
    induction fs with
    | nil => intro d x hx; simp at hx
    | cons f fs ih =>
      intro d x hx
      simp only [List.foldl_cons]
      by_cases hm : x ∈ fs.map basename
      · exact ih _ x hm
      · have : x = basename f := by simpa [hm] using hx
        subst this
        have stay : ∀ (fs : List Str) (d : Dict Str (Option (List (Str × Str)))) (y : Str), y ∉ fs.map basename →
            dget (fs.foldl (fun d f => dset d (basename f) r) d) y = dget d y := by
          intro fs
          induction fs with
          | nil => intro d y _; rfl
          | cons g fs ih2 =>
            intro d y hy
            simp only [List.map_cons, List.mem_cons, not_or] at hy
            rw [List.foldl_cons, ih2 _ _ hy.2, dget_dset_ne _ _ (fun e => hy.1 e.symm)]
        rw [stay _ _ _ hm]; simp
  cases hf : a.files with
  | nil => exact absurd hf hne
  | cons f fs =>
    have h1 := key a.files a.replace [] (basename f) (by simp [hf])
    have h2 := key b.files b.replace [] (basename f) (by rw [← h.2.1]; simp [hf])
    rw [hr, h2] at h1
    injection h1 with h1; exact h1.symm

/-- … but `copy_from` and `encoding` are not: two parsers that differ only there have equal
options, so each accepts the other's cache. -/
theorem C12_counterexample_copy_from :
    ∃ a b : CtorArgs Nat, initOpts a = initOpts b ∧
      dget ((initStoreFrom a).defs .types) c%"T" ≠ dget ((initStoreFrom b).defs .types) c%"T" ∧
      a.encoding ≠ b.encoding := by
  refine ⟨⟨[], [], none, c%"utf-8", []⟩,
    ⟨[], [[(some c%"a.h", fun k => if k = .types then [(c%"T", 1)] else [])]], none, c%"latin-1", []⟩, rfl, ?_, ?_⟩
  · decide
  · decide

/-- C13: a cache whose definitions part is well formed (or absent) leaves no trace when rejected. -/
theorem C13_no_trace_partial (modPath : Str → Str) (fs : FS V O) (p : Parser V O) (cache : Str) (check : Bool)
    (hgood : ∀ path info o v d, cachePath modPath fs cache = some path → fs path = some info →
      info.content = .obj o v (some d) → (importDict p.store d).2 = none)
    (h : (loadCache modPath fs p cache check).2 = false) :
    (loadCache modPath fs p cache check).1 = p := by
  unfold loadCache at h ⊢
  cases hp : cachePath modPath fs cache with
  | none => rfl
  | some path =>
    simp only [hp] at h ⊢
    cases hi : fs path with
    | none => rfl
    | some info =>
      simp only [hi] at h ⊢
      split
      · rfl
      · rename_i hn
        rw [if_neg hn] at h
        cases hc : info.content with
        | unreadable => rfl
        | obj o v d =>
          simp only [hc, loadContent] at h ⊢
          cases d with
          | none => split <;> rfl
          | some d =>
            have hg := hgood path info o v d hp hi hc
            split
            · rfl
            · rename_i hr
              rw [if_neg hr] at h
              simp only at h
              generalize importDict p.store d = r at h hg
              obtain ⟨s, e⟩ := r
              simp only at hg; subst hg
              cases h

/-- C13: only a malformed definitions part can leave a trace; the data written by `write_cache` never
does. -/
theorem C13_written_good (s : Store V) (ops : List (Op V)) :
    (importDict s (rawOf (runOps (Store.empty : Store V) ops).fileDefs)).2 = none :=
  importDict_ok _ _ (goodData_rawOf (WFStore.empty.run ops))

/-- C13 does not hold for malformed caches: the definitions read before the problem stay although
`load_cache` returns False. -/
theorem C13_counterexample :
    ∃ (fs : FS Nat Nat) (p : Parser Nat Nat),
      (loadCache id fs p c%"c" true).2 = false ∧
      dget (p.store.defs .types) c%"T" = none ∧
      dget ((loadCache id fs p c%"c" true).1.store.defs .types) c%"T" = some 7 := by
  refine ⟨fun q => if q = c%"c" then some ⟨5, .obj (some 0) (some 2)
    (some [(some c%"a.h", fun k => if k = .types then some [(c%"T", 7)] else none)])⟩ else none,
    ⟨Store.empty, [], 0⟩, ?_, ?_, ?_⟩ <;> decide

/-! ### C14 -/

/-- C14 (cache used): parsing is skipped exactly when `load_cache` accepts. -/
theorem C14_skip_iff (modPath : Str → Str) (pf : ParseFile V O) (fs : FS V O) (p : Parser V O)
    (cache : Option Str) (check : Bool) (now : Nat) (r : ProcResult V O)
    (h : processAll modPath pf fs p cache check now = .ok r) :
    r.parsed = none ↔ ∃ c, cache = some c ∧ (loadCache modPath fs p c check).2 = true := by
  unfold processAll at h
  cases cache with
  | none =>
    simp only [Bool.false_eq_true, if_false] at h
    cases hp : parseAll pf p.fileOrder p with
    | error e => simp [hp] at h
    | ok x => obtain ⟨p', t⟩ := x; simp [hp] at h; subst h; simp
  | some c =>
    simp only at h
    by_cases hl : (loadCache modPath fs p c check).2 = true
    · rw [if_pos hl] at h; injection h with h; subst h
      exact ⟨fun _ => ⟨c, rfl, hl⟩, fun _ => rfl⟩
    · rw [if_neg hl] at h
      cases hp : parseAll pf (loadCache modPath fs p c check).1.fileOrder (loadCache modPath fs p c check).1 with
      | error e => simp [hp] at h
      | ok x =>
        obtain ⟨p', t⟩ := x; simp [hp] at h; subst h
        constructor
        · intro h; cases h
        · rintro ⟨c', hc, h⟩
          injection hc with hc; subst hc; exact absurd h hl

/-- C14 (accepted): the definitions come from the cache, nothing is written. -/
theorem C14_accepted (modPath : Str → Str) (pf : ParseFile V O) (fs : FS V O) (p : Parser V O)
    (c : Str) (check : Bool) (now : Nat) (h : (loadCache modPath fs p c check).2 = true) :
    processAll modPath pf fs p (some c) check now = .ok ⟨(loadCache modPath fs p c check).1, fs, none⟩ := by
  simp [processAll, h]

theorem loadCache_fileOrder (modPath : Str → Str) (fs : FS V O) (p : Parser V O) (c : Str) (check : Bool) :
    (loadCache modPath fs p c check).1.fileOrder = p.fileOrder ∧
    (loadCache modPath fs p c check).1.opts = p.opts := by
  unfold loadCache
  split
  · exact ⟨rfl, rfl⟩
  · split
    · exact ⟨rfl, rfl⟩
    · split
      · exact ⟨rfl, rfl⟩
      · rename_i info _ _
        cases info.content with
        | unreadable => exact ⟨rfl, rfl⟩
        | obj o v d =>
          simp only [loadContent]
          split
          · exact ⟨rfl, rfl⟩
          · cases d with
            | none => exact ⟨rfl, rfl⟩
            | some d =>
              simp only
              generalize importDict p.store d = r
              obtain ⟨s, e⟩ := r
              cases e <;> exact ⟨rfl, rfl⟩

omit [DecidableEq O] in
theorem parseAll_trace (pf : ParseFile V O) (files : List Str) (p p' : Parser V O) (t : List Str)
    (h : parseAll pf files p = .ok (p', t)) : t = files := by
  induction files generalizing p t with
  | nil => simp [parseAll] at h; exact h.2
  | cons f fs ih =>
    simp only [parseAll] at h
    cases hp : pf f p with
    | error e => simp [hp] at h
    | ok q =>
      simp only [hp] at h
      cases hr : parseAll pf fs q with
      | error e => simp [hr] at h
      | ok x =>
        obtain ⟨q', t'⟩ := x
        simp [hr] at h
        rw [← h.2, ih q t' (by rw [hr, h.1])]

/-- C14 (rejected): every loaded file is parsed exactly once, in load order. -/
theorem C14_parse_order (modPath : Str → Str) (pf : ParseFile V O) (fs : FS V O) (p : Parser V O)
    (cache : Option Str) (check : Bool) (now : Nat) (r : ProcResult V O)
    (h : processAll modPath pf fs p cache check now = .ok r) (t : List Str) (ht : r.parsed = some t) :
    t = p.fileOrder := by
  unfold processAll at h
  cases cache with
  | none =>
    simp only [Bool.false_eq_true, if_false] at h
    cases hp : parseAll pf p.fileOrder p with
    | error e => simp [hp] at h
    | ok x =>
      obtain ⟨p', t'⟩ := x; simp [hp] at h; subst h
      simp at ht; subst ht
      exact parseAll_trace pf _ _ _ _ hp
  | some c =>
    simp only at h
    by_cases hl : (loadCache modPath fs p c check).2 = true
    · rw [if_pos hl] at h; injection h with h; subst h; cases ht
    · rw [if_neg hl] at h
      cases hp : parseAll pf (loadCache modPath fs p c check).1.fileOrder (loadCache modPath fs p c check).1 with
      | error e => simp [hp] at h
      | ok x =>
        obtain ⟨p', t'⟩ := x; simp [hp] at h; subst h
        simp at ht; subst ht
        rw [parseAll_trace pf _ _ _ _ hp]
        exact (loadCache_fileOrder modPath fs p c check).1

/-- Parsing a file changes neither the options nor the list of files. -/
def ParseKeeps (pf : ParseFile V O) : Prop :=
  ∀ f p p', pf f p = .ok p' → p'.opts = p.opts ∧ p'.fileOrder = p.fileOrder ∧
    (WFStore p.store → WFStore p'.store)

omit [DecidableEq O] in
theorem parseAll_keeps {pf : ParseFile V O} (hk : ParseKeeps pf) (files : List Str) (p p' : Parser V O)
    (t : List Str) (h : parseAll pf files p = .ok (p', t)) :
    p'.opts = p.opts ∧ p'.fileOrder = p.fileOrder ∧ (WFStore p.store → WFStore p'.store) := by
  induction files generalizing p t with
  | nil => simp [parseAll] at h; rw [← h.1]; exact ⟨rfl, rfl, id⟩
  | cons f fs ih =>
    simp only [parseAll] at h
    cases hp : pf f p with
    | error e => simp [hp] at h
    | ok q =>
      simp only [hp] at h
      cases hr : parseAll pf fs q with
      | error e => simp [hr] at h
      | ok x =>
        obtain ⟨q', t'⟩ := x
        simp [hr] at h
        obtain ⟨h1, h2, h3⟩ := ih q t' (by rw [hr, h.1])
        obtain ⟨k1, k2, k3⟩ := hk f p q hp
        exact ⟨h1.trans k1, h2.trans k2, fun hw => h3 (k3 hw)⟩

/-- C14 (the cache written is then accepted): after `process_all` parsed and wrote the cache at time
`now`, a parser with the same options and files accepts it, as long as no source is newer. -/
theorem C14_written_accepted (modPath : Str → Str) (pf : ParseFile V O) (hk : ParseKeeps pf) (fs : FS V O)
    (p q : Parser V O) (c : Str) (check check' : Bool) (now : Nat) (r : ProcResult V O)
    (hw : WFStore (loadCache modPath fs p c check).1.store)
    (h : processAll modPath pf fs p (some c) check now = .ok r) (hpar : r.parsed ≠ none)
    (hq : q.opts = p.opts)
    (hnew : ∀ f ∈ q.fileOrder, ∀ src, r.fs f = some src → src.mtime ≤ now) :
    (loadCache modPath r.fs q c check').2 = true := by
  unfold processAll at h
  simp only at h
  by_cases hl : (loadCache modPath fs p c check).2 = true
  · rw [if_pos hl] at h; injection h with h; subst h; exact absurd rfl hpar
  · rw [if_neg hl] at h
    cases hp : parseAll pf (loadCache modPath fs p c check).1.fileOrder (loadCache modPath fs p c check).1 with
    | error e => simp [hp] at h
    | ok x =>
      obtain ⟨p', t'⟩ := x; simp [hp] at h; subst h
      obtain ⟨k1, _, k3⟩ := parseAll_keeps hk _ _ _ _ hp
      rw [C12_accept_iff]
      have hfs : writeCache fs p' c now c =
          some ⟨now, .obj (some p'.opts) (some cacheVersion) (some (rawOf p'.store.fileDefs))⟩ := by
        simp [writeCache]
      refine ⟨c, _, _, _, _, ?_, hfs, rfl, ?_, ?_⟩
      · rw [C11_path]; exact Or.inl ⟨rfl, by simp [hfs]⟩
      · exact importDict_ok _ _ (goodData_rawOf (k3 hw))
      · intro _
        refine ⟨hnew, ?_, cacheVersion, rfl, by simp⟩
        rw [k1, (loadCache_fileOrder modPath fs p c check).2, hq]

end

-- C11: a stale cache
example : loadCache (V := Nat) (O := Nat) id
    (fun q => if q = c%"c" then some ⟨5, .obj (some 0) (some 2) (some [])⟩
      else if q = c%"a.h" then some ⟨6, .unreadable⟩ else none)
    ⟨Store.empty, [c%"a.h"], 0⟩ c%"c" true = (⟨Store.empty, [c%"a.h"], 0⟩, false) :=
  C11_stale id _ _ _ c%"c" _ rfl rfl c%"a.h" _ (by simp) rfl (by decide)
-- C12/C13/C14: an acceptable cache (and the same one with other options)
example : (loadCache (V := Nat) (O := Nat) id
    (fun q => if q = c%"c" then some ⟨5, .obj (some 0) (some 2) (some [])⟩ else none)
    ⟨Store.empty, [c%"a.h"], 0⟩ c%"c" true).2 = true := by decide
example : (loadCache (V := Nat) (O := Nat) id
    (fun q => if q = c%"c" then some ⟨5, .obj (some 1) (some 2) (some [])⟩ else none)
    ⟨Store.empty, [c%"a.h"], 0⟩ c%"c" true).2 = false := by decide
-- C14: a parse function satisfying `ParseKeeps`
example : ParseKeeps (V := Nat) (O := Nat)
    (fun f p => .ok { p with store := addDef (setFile p.store (some f)) .macros c%"X" 1 }) := by
  intro f p p' h
  injection h with h; subst h
  exact ⟨rfl, rfl, fun hw => (hw.setFile _).addDef _ _ _⟩

end Pyclib
