import Verif.Props.FileFrame
import Verif.Props.Cache
/-! C68: caching the definitions of header files. -/
namespace Pyclib
open Spec

/-- The lines of a file as `preprocess` reads them: comments removed, continued lines joined. -/
def fileLines (text : Str) : List Line := (splitOnC '\n' (joinLines (removeComments text))).map classify

section
variable {V : Type}

theorem dkeys_dset_mem {κ α : Type} [DecidableEq κ] {d : Dict κ α} {a b : κ} {x : α}
    (h : a ∈ dkeys (dset d b x)) : a ∈ dkeys d ∨ a = b := by
  induction d with
  | nil => simp [dset, dkeys] at h; exact .inr h
  | cons p d ih =>
    obtain ⟨g, y⟩ := p
    simp only [dset] at h
    split at h
    · simp only [dkeys, List.map_cons, List.mem_cons] at h ⊢
      rcases h with h | h
      · rename_i e; exact .inl (.inl (h.trans (by first | rfl | exact e | exact e.symm)))
      · exact .inl (.inr h)
    · simp only [dkeys, List.map_cons, List.mem_cons] at h ⊢
      rcases h with h | h
      · exact .inl (.inl h)
      · rcases ih h with h | h
        · exact .inl (.inr h)
        · exact .inr h

theorem files_addDef {s : Store V} {k : Kind} {n : Str} {v : V} {f : Option Str}
    (h : f ∈ dkeys (addDef s k n v).fileDefs) : f ∈ dkeys s.fileDefs ∨ f = baseOf s.cur :=
  dkeys_dset_mem h

theorem files_remDef {s : Store V} {k : Kind} {n : Str} {f : Option Str}
    (h : f ∈ dkeys (remDef s k n).1.fileDefs) : f ∈ dkeys s.fileDefs ∨ f = baseOf s.cur := by
  unfold remDef at h
  split at h
  · dsimp only at h
    split at h
    · exact .inl h
    · split at h
      · exact dkeys_dset_mem h
      · exact .inl h
  · exact .inl h

theorem recorded_fresh {s : Store V} {f : Option Str} (h : f ∉ dkeys s.fileDefs) (k : Kind) (n : Str) :
    recorded s f k n = none := by
  unfold recorded
  rw [dget_none_iff.2 h]; rfl
end

/-- What is kept while the file `path` is being processed, starting from `s0`. -/
structure FileInv (kw s0 : Store DefVal) (path : Str) (ls : List Line) (s : Store DefVal) : Prop where
  rt : RTInv kw s
  cur : s.cur = some path
  files : ∀ f ∈ dkeys s.fileDefs, f ∈ dkeys s0.fileDefs ∨ f = some (basename path)
  others : ∀ f, f ≠ some (basename path) → ∀ k n, recorded s f k n = recorded s0 f k n
  macros : ∀ n, (recorded s (some (basename path)) .macros n).isSome → ∃ r, .define n r ∈ ls

theorem FileInv.add {kw s0 s : Store DefVal} {path : Str} {ls : List Line} (h : FileInv kw s0 path ls s) (k : Kind)
    (n : Str) (v : DefVal) (hm : k = .macros → ∃ r, .define n r ∈ ls) : FileInv kw s0 path ls (addDef s k n v) := by
  have hb : baseOf s.cur = some (basename path) := by rw [h.cur]; rfl
  refine ⟨h.rt.addDef k n v, h.cur, fun f hf => ?_, fun f hf k' n' => ?_, fun n' hn => ?_⟩
  · rcases files_addDef hf with hf | hf
    · exact h.files f hf
    · exact .inr (hf.trans hb)
  · rw [recorded_addDef, if_neg (fun hh => hf (by rw [← hh.1, hb])), h.others f hf]
  · rw [recorded_addDef] at hn
    split at hn
    · rename_i hh
      obtain ⟨_, e1, rfl⟩ := hh
      exact hm e1
    · exact h.macros n' hn

theorem FileInv.undef {kw s0 s : Store DefVal} {path : Str} {ls : List Line} (h : FileInv kw s0 path ls s) (n : Str)
    (hu : ∀ f, f ≠ some (basename path) → recorded s0 f .macros n = none) :
    FileInv kw s0 path ls (remDef s .macros n).1 := by
  have hb : baseOf s.cur = some (basename path) := by rw [h.cur]; rfl
  refine ⟨h.rt.remDef .macros n (by rw [h.cur]; simp) (fun f hf => ?_), by rw [remDef_cur]; exact h.cur,
    fun f hf => ?_, fun f hf k' n' => ?_, fun n' hn => ?_⟩
  · rw [hb] at hf
    rw [h.others f hf, hu f hf]
  · rcases files_remDef hf with hf | hf
    · exact h.files f hf
    · exact .inr (hf.trans hb)
  · rw [recorded_remDef, if_neg (fun hh => hf (by rw [← hh.1, hb])), h.others f hf]
  · rw [recorded_remDef] at hn
    split at hn
    · cases hn
    · exact h.macros n' hn

theorem FileInv.define {w : Setup} {kw s0 s : Store DefVal} {path : Str} {ls : List Line} (h : FileInv kw s0 path ls s)
    (n r r' : Str) (hm : .define n r' ∈ ls) : FileInv kw s0 path ls (w.sem.define s n r) := by
  show FileInv kw s0 path ls (defineIn w.ev s n r)
  simp only [defineIn]
  split
  · exact h.add _ _ _ (fun e => by cases e)
  · split
    · exact (h.add _ _ _ (fun _ => ⟨r', hm⟩)).add _ _ _ (fun e => by cases e)
    · exact h.add _ _ _ (fun e => by cases e)

theorem FileInv.adds {kw s0 s s' : Store DefVal} {path : Str} {ls : List Line} (h : FileInv kw s0 path ls s)
    (ha : Adds s s') : FileInv kw s0 path ls s' := by
  induction ha with
  | refl => exact h
  | add s' k n v h1 _ _ ih => exact ih.add k n v (fun e => absurd e h1)

theorem file_inv {w : Setup} {kw s s' : Store DefVal} {path text out : Str} (h : processFile w s path text = .ok (s', out))
    (hi : RTInv kw s) (hf : some (basename path) ∉ dkeys s.fileDefs)
    (hu : ∀ n, .undef n ∈ fileLines text → ∀ f, f ≠ some (basename path) → recorded s f .macros n = none) :
    FileInv kw s path (fileLines text) s' := by
  have h0 : FileInv kw s path (fileLines text) (setFile s (some path)) :=
    ⟨⟨hi.wf.setFile _, hi.last, .inl hf, hi.kw⟩, rfl, fun f hf => .inl hf, fun _ _ _ _ => rfl, fun n hn => by
      have := recorded_fresh hf .macros n
      change (recorded s _ _ _).isSome at hn
      rw [this] at hn; cases hn⟩
  unfold processFile at h
  split at h
  · cases h
  · rename_i st o e
    have h1 : FileInv kw s path (fileLines text) st.env := by
      unfold preprocess at e
      split at e
      · cases e
      · rename_i st' os e'
        cases e
        exact ppRun_env (P := FileInv kw s path (fileLines text)) (fun n r' r hm env h => h.define n r r' hm)
          (fun n hn env h => h.undef n (hu n hn)) e' h0
    have h2 := adds_parseDefs (w.gram st.packList o) st.env o
    split at h
    · rename_i s2 e2
      cases h
      rw [e2] at h2
      exact h1.adds h2
    · cases h

/-- The files of the list have different base names, and no file removes a macro (`#undef`) that is a
keyword argument or that another file of the list defines. -/
def CacheSafe (kw : List (Kind × Str × DefVal)) (fs : List (Str × Str)) : Prop :=
  (fs.map fun p => basename p.1).Nodup ∧
  ∀ p ∈ fs, ∀ n, .undef n ∈ fileLines p.2 → (∀ v, (Kind.macros, n, v) ∉ kw) ∧
    ∀ q ∈ fs, q ≠ p → ∀ r, .define n r ∉ fileLines q.2

theorem files_inv {w : Setup} {kw s0 : Store DefVal} : ∀ {fs pre : List (Str × Str)} {s s' : Store DefVal},
    processFiles w s fs = .ok s' → RTInv kw s → ((pre ++ fs).map fun p => basename p.1).Nodup →
    (∀ p ∈ fs, ∀ n, .undef n ∈ fileLines p.2 → recorded s0 none .macros n = none ∧
      ∀ q ∈ pre ++ fs, q ≠ p → ∀ r, .define n r ∉ fileLines q.2) →
    (∀ f ∈ dkeys s.fileDefs, f = none ∨ f ∈ pre.map (fun p => some (basename p.1))) →
    (∀ n, recorded s none .macros n = recorded s0 none .macros n) →
    (∀ p ∈ pre, ∀ n, (recorded s (some (basename p.1)) .macros n).isSome → ∃ r, .define n r ∈ fileLines p.2) →
    RTInv kw s'
  | [], _, s, s', h, hi, _, _, _, _, _ => by cases h; exact hi
  | (path, text) :: fs, pre, s, s', h, hi, hn, hu, hk, h0, hm => by
    simp only [processFiles] at h
    split at h
    · cases h
    · rename_i s1 out e
      have hnot : ∀ p ∈ pre, basename p.1 ≠ basename path := by
        rw [List.map_append, List.nodup_append] at hn
        intro p hp
        exact hn.2.2 _ (List.mem_map.2 ⟨p, hp, rfl⟩) _ (by simp)
      have hfresh : some (basename path) ∉ dkeys s.fileDefs := by
        intro hf
        rcases hk _ hf with h | h
        · cases h
        · obtain ⟨p, hp, e⟩ := List.mem_map.1 h
          exact hnot p hp (by injection e)
      have hi1 := file_inv e hi hfresh (by
        intro n hnu f hf
        by_cases hf0 : f ∈ dkeys s.fileDefs
        · obtain ⟨u1, u2⟩ := hu (path, text) (by simp) n hnu
          rcases hk f hf0 with rfl | hf0
          · rw [h0, u1]
          · obtain ⟨p, hp, rfl⟩ := List.mem_map.1 hf0
            cases hr : recorded s (some (basename p.1)) .macros n with
            | none => rfl
            | some v =>
              obtain ⟨r, hr'⟩ := hm p hp n (by rw [hr]; rfl)
              exact absurd hr' (u2 p (by simp [hp]) (fun e => hnot p hp (by rw [e])) r)
        · exact recorded_fresh hf0 _ _)
      refine files_inv (s0 := s0) (pre := pre ++ [(path, text)]) h hi1.rt (by simpa using hn) (fun p hp n hn' => ?_) (fun f hf => ?_)
        (fun n => ?_) (fun p hp n hr => ?_)
      · have := hu p (by simp [hp]) n hn'
        simpa using this
      · rcases hi1.files f hf with h | h
        · rcases hk f h with h | h
          · exact .inl h
          · exact .inr (by rw [List.map_append]; exact List.mem_append_left _ h)
        · exact .inr (by rw [h]; simp)
      · rw [hi1.others none (by simp), h0]
      · rcases List.mem_append.1 hp with hp | hp
        · have hne : some (basename p.1) ≠ some (basename path) := fun e => hnot p hp (by injection e)
          rw [hi1.others _ hne] at hr
          exact hm p hp n hr
        · simp only [List.mem_singleton] at hp
          subst hp
          exact hi1.macros n hr

theorem kwargs_recorded : ∀ (kw : List (Kind × Str × DefVal)) (s : Store DefVal) (k : Kind) (n : Str),
    (∀ v, (k, n, v) ∉ kw) → ∀ f, recorded (addKwargs s kw) f k n = recorded s f k n
  | [], _, _, _, _, _ => rfl
  | (k', n', v') :: kw, s, k, n, h, f => by
    have h1 := kwargs_recorded kw (addDef s k' n' v') k n (fun v hv => h v (by simp [hv])) f
    show recorded (addKwargs (addDef s k' n' v') kw) f k n = _
    rw [h1, recorded_addDef, if_neg]
    rintro ⟨_, rfl, rfl⟩
    exact h v' (by simp)

theorem kwargs_files : ∀ (kw : List (Kind × Str × DefVal)) (s : Store DefVal), s.cur = none →
    (∀ f ∈ dkeys s.fileDefs, f = none) → ∀ f ∈ dkeys (addKwargs s kw).fileDefs, f = none
  | [], _, _, h => h
  | (k, n, v) :: kw, s, hc, h => kwargs_files kw (addDef s k n v) hc (fun f hf => by
      rcases files_addDef hf with hf | hf
      · exact h f hf
      · rw [hf, hc]; rfl)

theorem processFiles_rt {w : Setup} {kw : List (Kind × Str × DefVal)} {fs : List (Str × Str)} {s : Store DefVal}
    (hs : CacheSafe kw fs) (h : processFiles w (initStore kw) fs = .ok s) : RTInv (initStore kw) s := by
  refine files_inv (s0 := initStore kw) (pre := []) h (rtInv_init kw) hs.1 (fun p hp n hn => ?_) (fun f hf => ?_)
    (fun _ => rfl) (fun p hp => by cases hp)
  · obtain ⟨h1, h2⟩ := hs.2 p hp n hn
    exact ⟨kwargs_recorded kw Store.empty .macros n h1 none, h2⟩
  · exact .inl (kwargs_files kw Store.empty rfl (fun f hf => by cases hf) f hf)

theorem rt_reload {V : Type} {kw : List (Kind × Str × V)} {s : Store V} (hi : RTInv (initStore kw) s) (k : Kind) (n : Str) :
    dget ((reload kw s).defs k) n = dget (s.defs k) n := by
  unfold reload
  rw [defs_importDict _ _ (goodData_rawOf hi.wf), hi.last]
  cases hl : lastRec (rawOf s.fileDefs) k n with
  | some v => simp
  | none =>
    simp only [Option.none_or]
    cases hk : dget ((initStore kw).defs k) n with
    | none => rfl
    | some v =>
      have := lastRec_some_of_recorded (hi.kw k n (by simp [hk]))
      simp [hl] at this

/-- C68 (real headers): whatever the texts of the files, as far as `CacheSafe` goes, a parser that loads the
cache written after processing them shows exactly the same definitions. -/
theorem C68_reload_partial {w : Setup} {kw : List (Kind × Str × DefVal)} {fs : List (Str × Str)} {s : Store DefVal}
    (hs : CacheSafe kw fs) (h : processFiles w (initStore kw) fs = .ok s) (k : Kind) (n : Str) :
    dget ((reload kw s).defs k) n = dget (s.defs k) n :=
  rt_reload (processFiles_rt hs h) k n

/-- The per-file work of `process_all` on the contents of the files (c_parser.py:592-604). -/
def fileWork {O : Type} (w : Setup) (content : Str → Str) : ParseFile DefVal O := fun f p =>
  match processFile w p.store f (content f) with
  | .error e => .error e
  | .ok (s, _) => .ok { p with store := s }

theorem parseAll_files {O : Type} {w : Setup} {content : Str → Str} : ∀ {files : List Str} {p p' : Parser DefVal O}
    {t : List Str}, parseAll (fileWork w content) files p = .ok (p', t) →
    processFiles w p.store (files.map fun f => (f, content f)) = .ok p'.store
  | [], p, p', t, h => by cases h; rfl
  | f :: files, p, p', t, h => by
    simp only [parseAll] at h
    cases hp : fileWork w content f p with
    | error e => simp [hp] at h
    | ok q =>
      simp only [hp] at h
      cases hr : parseAll (fileWork w content) files q with
      | error e => simp [hr] at h
      | ok x =>
        obtain ⟨q', t'⟩ := x
        simp [hr] at h
        obtain ⟨rfl, rfl⟩ := h
        have ih := parseAll_files hr
        unfold fileWork at hp
        simp only [List.map_cons, processFiles]
        split at hp
        · cases hp
        · rename_i s1 out e
          cases hp
          simp only [e]
          exact ih

theorem fileWork_keeps {O : Type} (w : Setup) (content : Str → Str) : ParseKeeps (O := O) (fileWork w content) := by
  intro f p p' h
  unfold fileWork at h
  split at h
  · cases h
  · rename_i s out e
    cases h
    refine ⟨rfl, rfl, fun hw => ?_⟩
    obtain ⟨ops, e1⟩ := edits_ops (file_edits e)
    show WFStore s
    rw [e1]
    exact (hw.setFile _).run ops

/-- C68 (two runs): a first `CParser` processes header files, with no usable cache, and writes the cache; a
second one with the same keyword arguments, options and files, none of them modified since, parses nothing
and shows exactly the same definitions. -/
theorem C68_second_run_partial {O : Type} [DecidableEq O] (w : Setup) (content : Str → Str) (modPath : Str → Str)
    (disk : FS DefVal O) (kw : List (Kind × Str × DefVal)) (files : List Str) (opts : O) (c : Str)
    (check check' : Bool) (now now' : Nat) (r : ProcResult DefVal O)
    (hnone : loadCache modPath disk ⟨initStore kw, files, opts⟩ c check = (⟨initStore kw, files, opts⟩, false))
    (h : processAll modPath (fileWork w content) disk ⟨initStore kw, files, opts⟩ (some c) check now = .ok r)
    (hsafe : CacheSafe kw (files.map fun f => (f, content f)))
    (hnew : ∀ f ∈ files, ∀ src, r.fs f = some src → src.mtime ≤ now) :
    ∃ r', processAll modPath (fileWork w content) r.fs ⟨initStore kw, files, opts⟩ (some c) check' now' = .ok r' ∧
      r'.parsed = none ∧ ∀ k n, dget (r'.parser.store.defs k) n = dget (r.parser.store.defs k) n := by
  have hacc := C14_written_accepted modPath (fileWork w content) (fileWork_keeps w content) disk
    ⟨initStore kw, files, opts⟩ ⟨initStore kw, files, opts⟩ c check check' now r
    (by rw [hnone]; exact (rtInv_init kw).wf) h
    (by
      unfold processAll at h
      simp only [hnone, Bool.false_eq_true, if_false] at h
      split at h
      · cases h
      · cases h; simp) rfl hnew
  unfold processAll at h
  simp only [hnone, Bool.false_eq_true, if_false] at h
  split at h
  · cases h
  · rename_i p' t e
    cases h
    have hrt := processFiles_rt hsafe (parseAll_files e)
    refine ⟨⟨(loadCache modPath (writeCache disk p' c now) ⟨initStore kw, files, opts⟩ c check').1, writeCache disk p' c now, none⟩,
      ?_, rfl, fun k n => ?_⟩
    · unfold processAll
      simp only [hacc, if_true]
    · rw [← rt_reload hrt k n]
      have hfs : writeCache disk p' c now c =
          some ⟨now, .obj (some p'.opts) (some cacheVersion) (some (rawOf p'.store.fileDefs))⟩ := by simp [writeCache]
      have hcp : cachePath modPath (writeCache disk p' c now) c = some c := by
        unfold cachePath; rw [hfs]; rfl
      unfold loadCache at hacc ⊢
      simp only [hcp, hfs] at hacc ⊢
      split at hacc
      · cases hacc
      · rename_i hc
        rw [if_neg hc]
        unfold loadContent at hacc ⊢
        dsimp only at hacc ⊢
        split at hacc
        · cases hacc
        · rename_i hc'
          rw [if_neg hc']
          unfold reload
          cases himp : importDict (initStore kw) (rawOf p'.store.fileDefs) with
          | mk s2 o =>
            rw [himp] at hacc
            cases o with
            | none => rfl
            | some e => cases hacc

/-- Two headers: the second removes a macro that it defines itself. -/
def cacheFiles : List (Str × Str) :=
  [(c%"a.h", c%"#define A 2\nint x[A];"), (c%"b.h", c%"#define B 3\nint y[B];\n#undef B\n#define A 4")]

theorem C68_safe : CacheSafe [(.macros, c%"K", .macro c%"1")] cacheFiles := by
  have e1 : fileLines c%"#define A 2\nint x[A];" = [.define c%"A" c%" 2", .code c%"int x[A];"] := by decide +kernel
  have e2 : fileLines c%"#define B 3\nint y[B];\n#undef B\n#define A 4" =
      [.define c%"B" c%" 3", .code c%"int y[B];", .undef c%"B", .define c%"A" c%" 4"] := by decide +kernel
  refine ⟨by decide, fun p hp n hn => ?_⟩
  simp only [cacheFiles, List.mem_cons, List.not_mem_nil, or_false] at hp
  rcases hp with rfl | rfl
  · rw [e1] at hn; simp at hn
  · rw [e2] at hn
    simp at hn
    subst hn
    refine ⟨fun v hv => ?_, fun q hq hne r hr => ?_⟩
    · simp at hv
    · simp only [cacheFiles, List.mem_cons, List.not_mem_nil, or_false] at hq
      rcases hq with rfl | rfl
      · rw [e1] at hr; simp at hr
      · exact hne rfl

/-- The text of a macro, or an integer value. -/
def shown : Option DefVal → Option (Str ⊕ Int)
  | some (.macro t) => some (.inl t)
  | some (.value (.int i)) => some (.inr i)
  | _ => none

/-- What is visible after processing files, and what after reloading the cache written then. -/
def afterReload (kw : List (Kind × Str × DefVal)) (fs : List (Str × Str)) (k : Kind) (n : Str) :
    Option (Option (Str ⊕ Int) × Option (Str ⊕ Int)) :=
  match processFiles exSetup (initStore kw) fs with
  | .ok s => some (shown (dget (s.defs k) n), shown (dget ((reload kw s).defs k) n))
  | .error _ => none

theorem C68_example : afterReload [] cacheFiles .values c%"A" = some (some (.inr 4), some (.inr 4)) ∧
    afterReload [] cacheFiles .macros c%"B" = some (none, none) := by decide +kernel

/-- Outside `CacheSafe` the claim fails: a macro that another file removes comes back. -/
theorem C68_counterexample_undef :
    afterReload [] [(c%"a.h", c%"#define X 1"), (c%"b.h", c%"#undef X")] .macros c%"X" = some (none, some (.inl c%"1")) := by
  decide +kernel

/-- So does a macro passed as keyword argument that a file removes. -/
theorem C68_counterexample_kwargs :
    afterReload [(.macros, c%"X", .macro c%"1")] [(c%"b.h", c%"#undef X")] .macros c%"X" =
      some (none, some (.inl c%"1")) := by decide +kernel

/-- With equal base names the wrong definition may win. -/
theorem C68_counterexample_basename :
    afterReload [] [(c%"p/a.h", c%"#define X 1"), (c%"b.h", c%"#define X 2"), (c%"q/a.h", c%"#define X 3")] .values c%"X" =
      some (some (.inr 3), some (.inr 2)) := by decide +kernel

end Pyclib
