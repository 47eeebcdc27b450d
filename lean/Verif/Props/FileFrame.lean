import Verif.Props.File
import Verif.Props.Store
/-! C66, C67: attribution of definitions to files, include guards. -/
namespace Pyclib
open Spec

/-! ### What a file may do to the tables, whatever its text -/

/-- The tables `s'` come from `s` by adding definitions and removing macros. -/
inductive Edits : Store DefVal → Store DefVal → Prop
  | refl (s : Store DefVal) : Edits s s
  | add (s s' : Store DefVal) (k : Kind) (n : Str) (v : DefVal) : Edits s s' → Edits s (addDef s' k n v)
  | undef (s s' : Store DefVal) (n : Str) : Edits s s' → Edits s (remDef s' .macros n).1

theorem edits_adds {a b c : Store DefVal} (h : Edits a b) (h' : Adds b c) : Edits a c := by
  induction h' with
  | refl => exact h
  | add s' k n v _ _ _ ih => exact .add _ _ k n v ih

theorem edits_define {w : Setup} {a b : Store DefVal} (n r : Str) (h : Edits a b) : Edits a (w.sem.define b n r) := by
  show Edits a (defineIn w.ev b n r)
  simp only [defineIn]
  split
  · exact .add _ _ _ _ _ h
  · split
    · exact .add _ _ _ _ _ (.add _ _ _ _ _ h)
    · exact .add _ _ _ _ _ h

section
variable {E : Type} {sem : PPSem E} {P : E → Prop}

theorem ppStep_env {l : Line} (hd : ∀ n r r', l = .define n r → ∀ env, P env → P (sem.define env n r'))
    (hu : ∀ n, l = .undef n → ∀ env, P env → P (sem.undef env n)) {i : Nat} {s s' : PPState E} {o : Option Out}
    (h : ppStep sem i s l = .ok (s', o)) (hp : P s.env) : P s'.env := by
  cases l <;> simp only [ppStep] at h
  all_goals
    repeat' split at h
    all_goals first
      | (cases h; done)
      | (cases h; exact hp)
      | (cases h; exact hd _ _ _ rfl _ hp)
      | (cases h; exact hu _ rfl _ hp)
      | (cases h; rename_i hh; rw [doPack_env hh]; exact hp)

/-- A property that definitions and removals preserve holds of the macro table at the end. -/
theorem ppRun_env : ∀ {ls : List Line}, (∀ n r r', .define n r ∈ ls → ∀ env, P env → P (sem.define env n r')) →
    (∀ n, .undef n ∈ ls → ∀ env, P env → P (sem.undef env n)) → ∀ {i : Nat} {s s' : PPState E} {os : List Out},
    ppRun sem i s ls = .ok (s', os) → P s.env → P s'.env
  | [], _, _, _, _, _, _, h, hp => by cases h; exact hp
  | l :: ls, hd, hu, i, s, s', os, h, hp => by
    simp only [ppRun] at h
    split at h
    · cases h
    · rename_i s1 o e1
      split at h
      · cases h
      · rename_i s2 os2 e2
        cases h
        exact ppRun_env (fun n r r' hn => hd n r r' (by simp [hn])) (fun n hn => hu n (by simp [hn])) e2
          (ppStep_env (fun n r r' e => hd n r r' (by simp [e])) (fun n e => hu n (by simp [e])) e1 hp)
end

/-- Whatever the text, processing a file adds definitions and removes macros, nothing else. -/
theorem file_edits {w : Setup} {s s' : Store DefVal} {path text out : Str}
    (h : processFile w s path text = .ok (s', out)) : Edits (setFile s (some path)) s' := by
  unfold processFile at h
  split at h
  · cases h
  · rename_i st o e
    have h1 : Edits (setFile s (some path)) st.env := by
      unfold preprocess at e
      split at e
      · cases e
      · rename_i st' os e'
        cases e
        exact ppRun_env (P := Edits (setFile s (some path))) (fun n _ r _ env h => edits_define n r h)
          (fun n _ env h => .undef _ _ n h) e' (.refl _)
    have h2 := adds_parseDefs (w.gram st.packList o) st.env o
    split at h
    · rename_i s2 e2
      cases h
      rw [e2] at h2
      exact edits_adds h1 h2
    · cases h

theorem remDef_cur (s : Store DefVal) (k : Kind) (n : Str) : (remDef s k n).1.cur = s.cur := by
  unfold remDef
  split
  · dsimp only
    split
    · rfl
    · split <;> rfl
  · rfl

theorem edits_frame {s s' : Store DefVal} (h : Edits s s') : s'.cur = s.cur ∧
    (∀ f, f ≠ baseOf s.cur → ∀ k n, recorded s' f k n = recorded s f k n) ∧
    (∀ k n v, dget (s'.defs k) n = some v → (dget (s.defs k) n = some v ∧ ∀ f, recorded s' f k n = recorded s f k n) ∨
      recorded s' (baseOf s.cur) k n = some v) ∧
    (∀ k n, k ≠ .macros → dhas (s.defs k) n = true → dhas (s'.defs k) n = true) := by
  induction h with
  | refl => exact ⟨rfl, fun _ _ _ _ => rfl, fun _ _ _ h => .inl ⟨h, fun _ => rfl⟩, fun _ _ _ h => h⟩
  | add s' k n v _ ih =>
    obtain ⟨h1, h2, h3, h4⟩ := ih
    refine ⟨h1, fun f hf k' n' => ?_, fun k' n' v' hv => ?_, fun k' n' hk hh => ?_⟩
    · rw [recorded_addDef, if_neg (fun hh => hf (by rw [← hh.1, h1]))]
      exact h2 f hf k' n'
    · rw [defs_addDef] at hv
      rw [recorded_addDef]
      by_cases e : k = k' ∧ n = n'
      · rw [if_pos e] at hv
        rw [if_pos ⟨by rw [h1], e⟩]
        exact .inr hv
      · rw [if_neg e] at hv
        have e' : ∀ f, recorded (addDef s' k n v) f k' n' = recorded s' f k' n' := fun f => by
          rw [recorded_addDef, if_neg (fun hh => e hh.2)]
        simp only [e', if_neg (fun hh : baseOf s'.cur = baseOf _ ∧ k = k' ∧ n = n' => e hh.2)]
        exact h3 _ _ _ hv
    · have := h4 k' n' hk hh
      unfold dhas at this ⊢
      rw [defs_addDef]
      split
      · rfl
      · exact this
  | undef s' n _ ih =>
    obtain ⟨h1, h2, h3, h4⟩ := ih
    refine ⟨by rw [remDef_cur]; exact h1, fun f hf k' n' => ?_, fun k' n' v' hv => ?_, fun k' n' hk hh => ?_⟩
    · rw [recorded_remDef, if_neg (fun hh => hf (by rw [← hh.1, h1]))]
      exact h2 f hf k' n'
    · rw [defs_remDef] at hv
      rw [recorded_remDef]
      by_cases e : Kind.macros = k' ∧ n = n'
      · rw [if_pos e] at hv; cases hv
      · rw [if_neg e] at hv
        have e' : ∀ f, recorded (remDef s' .macros n).1 f k' n' = recorded s' f k' n' := fun f => by
          rw [recorded_remDef, if_neg (fun hh => e ⟨hh.2.1, hh.2.2.1⟩)]
        rw [if_neg (fun hh => e ⟨hh.2.1, hh.2.2.1⟩)]
        simp only [e']
        exact h3 _ _ _ hv
    · have := h4 k' n' hk hh
      unfold dhas at this ⊢
      rw [defs_remDef, if_neg (fun e => hk e.1.symm)]
      exact this

theorem runOps_append : ∀ (a b : List (Op DefVal)) (s : Store DefVal), runOps s (a ++ b) = runOps (runOps s a) b
  | [], _, _ => rfl
  | _ :: a, b, _ => runOps_append a b _

theorem edits_ops {s s' : Store DefVal} (h : Edits s s') : ∃ ops : List (Op DefVal), s' = runOps s ops := by
  induction h with
  | refl => exact ⟨[], rfl⟩
  | add s' k n v _ ih =>
    obtain ⟨ops, e⟩ := ih
    exact ⟨ops ++ [.add k n v], by rw [runOps_append, ← e]; rfl⟩
  | undef s' n _ ih =>
    obtain ⟨ops, e⟩ := ih
    exact ⟨ops ++ [.rem .macros n], by rw [runOps_append, ← e]; rfl⟩

/-! ### C66 -/

/-- C66: whatever the text of a file, if processing it raises nothing, then what is recorded for other
files is unchanged; every definition visible afterwards was visible before, or is recorded, with the same
value, for the base name of this file; and nothing but macros disappears.  A definition that is not recorded
for this file is recorded as before. -/
theorem C66_file {w : Setup} {s s' : Store DefVal} {path text out : Str}
    (h : processFile w s path text = .ok (s', out)) :
    (∀ f, f ≠ some (basename path) → ∀ k n, recorded s' f k n = recorded s f k n) ∧
    (∀ k n v, dget (s'.defs k) n = some v → (dget (s.defs k) n = some v ∧ ∀ f, recorded s' f k n = recorded s f k n) ∨
      recorded s' (some (basename path)) k n = some v) ∧
    (∀ k n, k ≠ .macros → dhas (s.defs k) n = true → dhas (s'.defs k) n = true) := by
  obtain ⟨_, h2, h3, h4⟩ := edits_frame (file_edits h)
  exact ⟨h2, h3, h4⟩

/-- C66: the same for several files. -/
theorem C66_files {w : Setup} : ∀ {fs : List (Str × Str)} {s s' : Store DefVal}, processFiles w s fs = .ok s' →
    (∀ f, f ∉ fs.map (fun p => some (basename p.1)) → ∀ k n, recorded s' f k n = recorded s f k n) ∧
    (∀ k n v, dget (s'.defs k) n = some v → (dget (s.defs k) n = some v ∧ ∀ f, recorded s' f k n = recorded s f k n) ∨
      ∃ p ∈ fs, recorded s' (some (basename p.1)) k n = some v) ∧
    (∀ k n, k ≠ .macros → dhas (s.defs k) n = true → dhas (s'.defs k) n = true)
  | [], s, s', h => by cases h; exact ⟨fun _ _ _ _ => rfl, fun _ _ _ h => .inl ⟨h, fun _ => rfl⟩, fun _ _ _ h => h⟩
  | (path, text) :: fs, s, s', h => by
    simp only [processFiles] at h
    split at h
    · cases h
    · rename_i s1 out e
      obtain ⟨a1, a2, a3⟩ := C66_file e
      obtain ⟨b1, b2, b3⟩ := C66_files h
      refine ⟨fun f hf k n => ?_, fun k n v hv => ?_, fun k n hk hh => b3 k n hk (a3 k n hk hh)⟩
      · simp only [List.map_cons, List.mem_cons, not_or] at hf
        rw [b1 f hf.2, a1 f hf.1]
      · rcases b2 k n v hv with ⟨h, he⟩ | ⟨p, hp, h⟩
        · rcases a2 k n v h with ⟨h', he'⟩ | h'
          · exact .inl ⟨h', fun f => (he f).trans (he' f)⟩
          · exact .inr ⟨(path, text), by simp, by rw [he]; exact h'⟩
        · exact .inr ⟨p, by simp [hp], h⟩

/-- C66: the tables after any files are those of a history of additions and removals, so that C05, C06,
C07 and C08 apply to them. -/
theorem C66_history {w : Setup} : ∀ {fs : List (Str × Str)} {s s' : Store DefVal}, processFiles w s fs = .ok s' →
    ∃ ops : List (Op DefVal), s' = runOps s ops
  | [], s, s', h => by cases h; exact ⟨[], rfl⟩
  | (path, text) :: fs, s, s', h => by
    simp only [processFiles] at h
    split at h
    · cases h
    · rename_i s1 out e
      obtain ⟨ops, e1⟩ := edits_ops (file_edits e)
      obtain ⟨ops', e2⟩ := C66_history h
      exact ⟨.file (some path) :: (ops ++ ops'), by rw [runOps, runOps_append, e2, e1]; rfl⟩

/-- C66, C07: after any files, `find(name)` lists exactly the files and kinds in which the name is recorded,
and it finds every visible definition. -/
theorem C66_find {w : Setup} {fs : List (Str × Str)} {s : Store DefVal} (h : processFiles w Store.empty fs = .ok s)
    (name : Str) : (∀ f k, (f, k) ∈ find s name ↔ (recorded s f k name).isSome) ∧ (find s name).Nodup ∧
      ∀ k v, dget (s.defs k) name = some v → ∃ p ∈ fs, (some (basename p.1), k) ∈ find s name := by
  obtain ⟨ops, rfl⟩ := C66_history h
  have key := C07_find ops name
  refine ⟨key, C07_nodup ops name, fun k v hv => ?_⟩
  rcases (C66_files h).2.1 k name v hv with ⟨h', _⟩ | ⟨p, hp, h'⟩
  · cases h'
  · exact ⟨p, hp, (key _ k).2 (by rw [h']; rfl)⟩

/-- The text of a macro may disappear with `#undef`, but its value stays: `lib.A` is still 1. -/
theorem C66_undef_value : fileGet c%"#define A 1\n#undef A\n" .macros c%"A" = some none ∧
    fileGet c%"#define A 1\n#undef A\n" .values c%"A" = some (some (.value (.int 1))) := ⟨by rfl, by rfl⟩

/-- The files for which something is recorded after two files with the same base name. -/
def twoFiles : Option (List (Option Str) × Bool × Bool) :=
  match processFiles exSetup Store.empty [(c%"a/x.h", c%"int p;"), (c%"b/x.h", c%"int q;")] with
  | .ok s => some (dkeys s.fileDefs, (recorded s (some c%"x.h") .variables c%"p").isSome,
      (recorded s (some c%"x.h") .variables c%"q").isSome)
  | .error _ => none

/-- Two files with the same base name are recorded as one. -/
theorem C66_basename : twoFiles = some ([some c%"x.h"], true, true) := by decide +kernel

/-! ### C67 -/

theorem expand_blank {orc : Str → List Str → Option Str} {env : MEnv} {t : Str} (h : Blank t) : expandMacros orc env t = t := by
  refine expand_none _ _ ?_
  induction t with
  | nil => rfl
  | cons c t ih =>
    have ih := ih (fun d hd => h d (by simp [hd]))
    unfold findTok
    rcases h c (by simp) with rfl | rfl
    · rw [if_neg (by decide), if_neg (by decide), ih]; rfl
    · rw [if_neg (by decide), if_neg (by decide), ih]; rfl

theorem blank_white {t : Str} (h : Blank t) : t.all isWhite = true := by
  rw [List.all_eq_true]
  intro c hc
  rcases h c hc with rfl | rfl <;> decide

theorem skips_words {E : Type} {sem : PPSem E} : ∀ {es : List (Entry E)}, NoSel es → FileWords sem es []
  | [], _ => .nil
  | .cond :: es, h => .cond _ _ (skips_words fun e he => h e (by simp [he]))
  | .skip l :: es, h => .skip l _ _ (skips_words fun e he => h e (by simp [he]))
  | .sel env l :: es, h => absurd rfl (h _ (by simp) env l)

theorem blanks_words {w : Setup} (s : Store DefVal) : ∀ {b : SBlock}, b.Blanks → ∀ (c : SBlock),
    FileWords w.sem (c.trace (fileSem w) s) [] → FileWords w.sem ((b.app c).trace (fileSem w) s) []
  | .nil, _, c, h => h
  | .leaf t l rest, hb, c, h => by
    obtain ⟨rfl, h1, h2⟩ := hb
    have := FileWords.code (sem := w.sem) s t [] _ [] (by
      show Words '\n' (expandMacros w.orc (menvOf s) t) []
      rw [expand_blank h1]
      exact .nil _ _ (blank_white h1)) (blanks_words s h2 c h)
    exact this

theorem app_nil : ∀ b : SBlock, b.Blanks → b.app .nil = b
  | .nil, _ => rfl
  | .leaf t l rest, h => by simp only [SBlock.app, app_nil rest h.2.2]

theorem blanks_run {E : Type} (sem : CSem E) (env : E) : ∀ (b c : SBlock), b.Blanks →
    ((b.app c).run sem env).1 = (c.run sem env).1
  | .nil, _, _ => rfl
  | .leaf t l rest, c, hb => by
    obtain ⟨rfl, h1, h2⟩ := hb
    exact blanks_run sem env rest c h2

/-- C67: once the name of its include guard is defined, a file changes nothing: it means the same as an
empty file. -/
theorem C67_defined (w : Setup) (hg : gramOk w.castGram = true) {s : Store DefVal} (hs : TablesOk s) {path text g : Str}
    {b : SBlock} (hsrc : IsSource text b.texts) (hb : b.Ok) (hgu : Guarded g b) (hd : (fileSem w).defd s g = true) :
    ∃ out, processFile w s path text = .ok (setFile s (some path), out) := by
  refine C64_file_partial w hg hs ⟨b, [], hsrc, hb, .inl ⟨[], ?_, rfl⟩, ?_⟩
  · obtain ⟨pre, t1, t2, r, body, t3, post, rfl, h1, h2⟩ := hgu.1
    refine blanks_words _ h1 _ ?_
    have hd' : (Cond.ifndef g).holds (fileSem w) (setFile s (some path)) = false := by
      show (!(fileSem w).defd s g) = false
      rw [hd]; rfl
    simp only [SBlock.trace, hd', SChain.trace, SChain.run]
    refine .cond _ _ ?_
    have := blanks_words (w := w) (setFile s (some path)) h2 .nil .nil
    rw [app_nil _ h2] at this
    have key : ∀ {a b : List (Entry (Store DefVal))}, NoSel a → FileWords w.sem b [] → FileWords w.sem (a ++ b) [] := by
      intro a b ha hb
      induction a with
      | nil => exact hb
      | cons e a ih =>
        have ih := ih (fun e he => ha e (by simp [he]))
        cases e with
        | cond => exact .cond _ _ ih
        | skip l => exact .skip l _ _ ih
        | sel env l => exact absurd rfl (ha _ (by simp) env l)
    refine key ?_ (.cond _ _ this)
    rw [sblock_skips]
    exact block_noSel _
  · obtain ⟨pre, t1, t2, r, body, t3, post, rfl, h1, h2⟩ := hgu.1
    have hd' : (Cond.ifndef g).holds (fileSem w) (setFile s (some path)) = false := by
      show (!(fileSem w).defd s g) = false
      rw [hd]; rfl
    rw [blanks_run _ _ _ _ h1]
    simp only [SBlock.run, hd', SChain.run]
    have := blanks_run (fileSem w) (setFile s (some path)) post .nil h2
    rw [app_nil _ h2] at this
    simp only [Bool.false_eq_true, if_false, this]
    exact .nil _

theorem defd_define (w : Setup) {s : Store DefVal} (hs : MacOk s) (n r g : Str) (h : n = g ∨ (fileSem w).defd s g = true) :
    (fileSem w).defd (w.sem.define s n r) g = true := by
  have e : menvOf (w.sem.define s n r) = defineMacro (menvOf s) n r := ((world_sim w).define s n r hs).1
  show ((dget (menvOf (w.sem.define s n r)).macros g).isSome || (dget (menvOf (w.sem.define s n r)).fnmacros g).isSome) = true
  rw [e]
  have h' : n = g ∨ ((dget (menvOf s).macros g).isSome || (dget (menvOf s).fnmacros g).isSome) = true := h
  simp only [defineMacro]
  split
  · rw [dget_dset]
    rcases h' with rfl | h'
    · simp
    · split
      · simp
      · exact h'
  · split
    · rw [dget_dset]
      rcases h' with rfl | h'
      · simp
      · split
        · simp
        · exact h'
    · rw [dget_dset]
      rcases h' with rfl | h'
      · simp
      · split
        · simp
        · exact h'

theorem defd_undef (w : Setup) {s : Store DefVal} (hs : MacOk s) (n g : Str) (hn : n ≠ g) (h : (fileSem w).defd s g = true) :
    (fileSem w).defd (w.sem.undef s n) g = true := by
  have e : menvOf (w.sem.undef s n) = undefMacro (menvOf s) n := ((world_sim w).undef s n hs).1
  show ((dget (menvOf (w.sem.undef s n)).macros g).isSome || (dget (menvOf (w.sem.undef s n)).fnmacros g).isSome) = true
  rw [e]
  simp only [undefMacro, dget_ddel, if_neg hn]
  exact h

theorem keeps_line (w : Setup) {s : Store DefVal} {g t : Str} {l : Line} (h : TablesOk s ∧ (fileSem w).defd s g = true)
    (hl : IsLeaf t l) (hn : ¬ IsLeaf t (.undef g)) : TablesOk (lineEnv (fileSem w).toPPSem s l) ∧
      (fileSem w).defd (lineEnv (fileSem w).toPPSem s l) g = true := by
  refine ⟨file_line w s t l h.1 hl, ?_⟩
  cases l with
  | define n r => exact defd_define w h.1.1 n _ g (.inr h.2)
  | undef n => exact defd_undef w h.1.1 n g (fun e => hn (e ▸ hl)) h.2
  | _ => exact h.2

mutual
theorem block_keeps (w : Setup) {g : Str} (b : SBlock) (hb : b.Ok) (hn : ∀ t ∈ b.texts, ¬ IsLeaf t (.undef g)) :
    ∀ s : Store DefVal, TablesOk s ∧ (fileSem w).defd s g = true →
      TablesOk (b.run (fileSem w) s).1 ∧ (fileSem w).defd (b.run (fileSem w) s).1 g = true := by
  intro s h
  match b, hb, hn with
  | .nil, _, _ => exact h
  | .leaf t l rest, hb, hn =>
    exact block_keeps w rest hb.2 (fun t ht => hn t (by simp [SBlock.texts, ht])) _
      (keeps_line w h hb.1 (hn t (by simp [SBlock.texts])))
  | .cond t c body chain rest, hb, hn =>
    refine block_keeps w rest hb.2.2.2 (fun t ht => hn t (by simp [SBlock.texts, ht])) _ ?_
    split
    · exact block_keeps w body hb.2.1 (fun t ht => hn t (by simp [SBlock.texts, ht])) s h
    · exact chain_keeps w chain hb.2.2.1 (fun t ht => hn t (by simp [SBlock.texts, ht])) s h
theorem chain_keeps (w : Setup) {g : Str} (c : SChain) (hc : c.Ok) (hn : ∀ t ∈ c.texts, ¬ IsLeaf t (.undef g)) :
    ∀ s : Store DefVal, TablesOk s ∧ (fileSem w).defd s g = true →
      TablesOk (c.run (fileSem w) s).1 ∧ (fileSem w).defd (c.run (fileSem w) s).1 g = true := by
  intro s h
  match c, hc, hn with
  | .endif t, _, _ => exact h
  | .els t body t', ⟨_, hb, _⟩, hn => exact block_keeps w body hb (fun t ht => hn t (by simp [SChain.texts, ht])) s h
  | .elif t e body tail, ⟨_, hb, ht⟩, hn =>
    simp only [SChain.run]
    split
    · exact block_keeps w body hb (fun t ht => hn t (by simp [SChain.texts, ht])) s h
    · exact chain_keeps w tail ht (fun t ht => hn t (by simp [SChain.texts, ht])) s h
end

theorem app_ok : ∀ {a b : SBlock}, (a.app b).Ok → b.Ok
  | .nil, _, h => h
  | .leaf _ _ rest, _, h => app_ok (a := rest) h.2
  | .cond _ _ _ _ rest, _, h => app_ok (a := rest) h.2.2.2

theorem app_texts : ∀ (a b : SBlock), ∀ t ∈ b.texts, t ∈ (a.app b).texts
  | .nil, _, _, h => h
  | .leaf _ _ rest, b, t, h => by simp [SBlock.app, SBlock.texts, app_texts rest b t h]
  | .cond _ _ _ _ rest, b, t, h => by simp [SBlock.app, SBlock.texts, app_texts rest b t h]

/-- C67: a file with an include guard may be processed again: the second time changes nothing. -/
theorem C67_again (w : Setup) (hg : gramOk w.castGram = true) {s s' : Store DefVal} (hs : TablesOk s) {path text g out : Str}
    {b : SBlock} (hsrc : IsSource text b.texts) (hb : b.Ok) (hgu : Guarded g b)
    (h : processFile w s path text = .ok (s', out)) : ∃ out', processFile w s' path text = .ok (s', out') := by
  have hcur := (edits_frame (file_edits h)).1
  have hs0 := tablesOk_setFile hs (some path)
  obtain ⟨h1, h2⟩ := sblock_lines b hb
  have key : TablesOk s' ∧ (fileSem w).defd s' g = true := by
    unfold processFile at h
    split at h
    · cases h
    · rename_i st o e
      have h3 := (C17_text w.sem _ b.tree h2 _ _ (by rw [source_lines hsrc, h1]) e).1
      have hrun := sblock_run (sem := fileSem w) (P := TablesOk) (fun env t c => file_cond w env t c)
        (fun env t l => file_line w env t l) b hb _ hs0
      have h4 : st.env = (b.run (fileSem w) (setFile s (some path))).1 := by rw [h3]; exact congrArg Prod.fst hrun.1
      have h5 : (fileSem w).defd st.env g = true := by
        rw [h4]
        obtain ⟨⟨pre, t1, t2, r, body, t3, post, rfl, h6, h7⟩, hn⟩ := hgu
        rw [blanks_run _ _ _ _ h6]
        simp only [SBlock.run]
        have hp : ∀ x, (post.run (fileSem w) x).1 = x := by
          intro x
          have := blanks_run (fileSem w) x post .nil h7
          rwa [app_nil _ h7] at this
        rw [hp]
        have hok := app_ok hb
        by_cases hd : (Cond.ifndef g).holds (fileSem w) (setFile s (some path)) = true
        · rw [if_pos hd]
          refine (block_keeps w body hok.2.1.2 (fun t ht => hn t (app_texts _ _ t (by simp [SBlock.texts, ht]))) _ ⟨?_, ?_⟩).2
          · exact file_line w _ t2 _ hs0 hok.2.1.1
          · exact defd_define w hs0.1 g _ g (.inl rfl)
        · rw [if_neg hd]
          have hd' : ¬ (!(fileSem w).defd (setFile s (some path)) g) = true := hd
          show (fileSem w).defd (setFile s (some path)) g = true
          simpa using hd'
      have h8 := adds_parseDefs (w.gram st.packList o) st.env o
      split at h
      · rename_i s2 e2
        cases h
        rw [e2] at h8
        refine ⟨adds_tablesOk h8 (h4 ▸ hrun.2), ?_⟩
        obtain ⟨m1, m2, _⟩ := adds_macros h8
        have e : menvOf s' = menvOf st.env := by unfold menvOf; rw [m1, m2]
        show ((dget (menvOf s').macros g).isSome || (dget (menvOf s').fnmacros g).isSome) = true
        rw [e]; exact h5
      · cases h
  obtain ⟨out', e⟩ := C67_defined (path := path) w hg key.1 hsrc hb hgu key.2
  refine ⟨out', ?_⟩
  have : setFile s' (some path) = s' := by
    have hc : s'.cur = some path := hcur
    cases s'
    simp only at hc
    simp [setFile, hc]
  rw [this] at e
  exact e

/-- A file with an include guard. -/
def guardFile : Str := c%"/* g */\n#ifndef H\n#define H\nint x;\n#endif\n"

/-- Its lines. -/
def guardBlock : SBlock :=
  .leaf [] (.code []) (.cond c%"#ifndef H" (.ifndef c%"H")
    (.leaf c%"#define H" (.define c%"H" []) (.leaf c%"int x;" (.code c%"int x;") .nil)) (.endif c%"#endif")
    (.leaf [] (.code []) .nil))

/-- The hypotheses of `C67_again` hold for this file and a new parser, and the first time `x` is found. -/
theorem C67_example : gramOk exSetup.castGram = true ∧ TablesOk (Store.empty : Store DefVal) ∧
    IsSource guardFile guardBlock.texts ∧ guardBlock.Ok ∧ Guarded c%"H" guardBlock ∧
    (fileGet guardFile .variables c%"x").map Option.isSome = some true := by
  have b0 : Blank [] := by simp [Blank]
  have b1 : Blank [' '] := by simp [Blank]
  refine ⟨by decide, tablesOk_empty, ?_, ?_, ?_, by decide +kernel⟩
  · refine ⟨[.block c%" g ", .code c%"\n#ifndef H\n#define H\nint x;\n#endif\n"],
      [c%"\n#ifndef H\n#define H\nint x;\n#endif\n"], ?_, rfl, ?_, ?_, ?_, rfl, rfl, by decide, by decide⟩
    · refine ⟨?_, trivial, codeOk_of (by decide), fun h => absurd h (by decide), trivial⟩
      intro a b
      exact hasPiece_false (t := ['*', '/']) a b (by decide)
    · exact ⟨.inl rfl, trivial, trivial⟩
    · refine ⟨?_, ?_⟩
      · rintro a b c (rfl | rfl)
        · exact hasPiece_false (t := ['/', '\\', '\n']) a b (by decide)
        · exact hasPiece_false (t := ['*', '\\', '\n']) a b (by decide)
      · intro s hs
        simp at hs
    · intro p hp
      simp only [List.mem_cons, List.not_mem_nil, or_false] at hp
      rw [hp]; exact noCont_of (by decide)
  · exact ⟨code_leaf (by decide), .ifndef _ c%" H" _ [] ⟨[], [], b0, b0, rfl, by simp <;> decide⟩
      ⟨[' '], by simp, b1, ⟨'H', [], rfl, by decide, by simp⟩, rfl, by simp⟩ b0,
      ⟨.define _ c%" H" _ [] ⟨[], [], b0, b0, rfl, by simp <;> decide⟩
        ⟨[' '], by simp, b1, ⟨'H', [], rfl, by decide, by simp⟩, rfl, by simp⟩, code_leaf (by decide), trivial⟩,
      ⟨[], [], [], b0, b0, rfl, by simp⟩, code_leaf (by decide), trivial⟩
  · refine ⟨⟨.leaf [] (.code []) .nil, _, _, _, _, _, .leaf [] (.code []) .nil, rfl, ⟨rfl, b0, trivial⟩, rfl, b0, trivial⟩, ?_⟩
    have key : ∀ t ∈ guardBlock.texts, classify t ≠ .undef c%"H" := by decide
    intro t ht h
    exact key t ht (C17_leaf h)

end Pyclib
