import Verif.Proof.WfGram
import Verif.Props.FileFrame
import Verif.Props.File
import Verif.Model.Lib
import Verif.Props.Types
/-! C69: whatever the headers contain, the definition tables are well-formed. -/
namespace Pyclib
open Spec

/-! ### C69 -/

/-- C69: parsing keeps the tables well-formed, for every text (C or not), also when an exception ends it;
nothing is removed. -/
theorem C69_parse (g : Gram) (he : ExtraWords g.cfg) (s : Store DefVal) (hs : TablesWf g.cfg g.junk s) (text : Str) :
    TablesWf g.cfg g.junk (parseDefs g s text).1 ∧
    ∀ k n, k ≠ .macros → dhas (s.defs k) n = true → dhas ((parseDefs g s text).1.defs k) n = true :=
  ⟨(parseDefs_wf he hs text).1, (parseDefs_wf he hs text).2.has⟩

theorem wf_define {cfg : Cfg} {junk : Str → Str} {s : Store DefVal} (hs : TablesWf cfg junk s) (ev : EvalExpr) (n r : Str) :
    TablesWf cfg junk (defineIn ev s n r) := by
  simp only [defineIn]
  split
  · rename_i f e
    exact wf_add hs (by simp) (hs .fnmacros _ f e)
  · split
    · exact wf_add (wf_add hs (by simp) ⟨_, rfl⟩) (by simp) ⟨_, rfl⟩
    · exact wf_add hs (by simp) ⟨_, rfl⟩

theorem wf_undef {cfg : Cfg} {junk : Str → Str} {s : Store DefVal} (hs : TablesWf cfg junk s) (n : Str) :
    TablesWf cfg junk (remDef s .macros n).1 := by
  have key : ∀ k n', k ≠ .macros → dget ((remDef s .macros n).1.defs k) n' = dget (s.defs k) n' := by
    intro k n' hk
    rw [defs_remDef, if_neg (fun h => hk h.1.symm)]
  refine wf_step hs ⟨fun k n' hk h => ?_, fun u tag h => ?_, fun tag h => ?_⟩ fun k n' v h => ?_
  · unfold dhas at h ⊢; rw [key k n' hk]; exact h
  · unfold TagEntry at h ⊢; rw [key _ _ (by decide)]; exact h
  · unfold TagEntry at h ⊢; rw [key _ _ (by decide)]; exact h
  · rw [defs_remDef] at h
    split at h
    · cases h
    · exact .inl h

theorem wf_setFile {cfg : Cfg} {junk : Str → Str} {s : Store DefVal} (hs : TablesWf cfg junk s) (f : Option Str) :
    TablesWf cfg junk (setFile s f) :=
  wf_step hs ⟨fun _ _ _ h => h, fun _ _ h => h, fun _ h => h⟩ fun _ _ _ h => .inl h

/-- C69: processing a file keeps the tables well-formed, for every text. -/
theorem C69_file (w : Setup) (he : ExtraWords w.cfg) (s s' : Store DefVal) (hs : TablesWf w.cfg w.junk s)
    (path text out : Str) (h : processFile w s path text = .ok (s', out)) : TablesWf w.cfg w.junk s' := by
  unfold processFile at h
  split at h
  · cases h
  · rename_i st o e
    have h1 : TablesWf w.cfg w.junk st.env := by
      unfold preprocess at e
      split at e
      · cases e
      · rename_i st' os e'
        cases e
        exact ppRun_env (P := TablesWf w.cfg w.junk) (fun n _ r _ env h => wf_define h _ n r)
          (fun n _ env h => wf_undef h n) e' (wf_setFile hs _)
    have h2 := (C69_parse (w.gram st.packList o) he st.env h1 o).1
    split at h
    · rename_i s2 e2
      cases h
      rw [e2] at h2
      exact h2
    · cases h

/-- C69: the same for any sequence of files. -/
theorem C69_files (w : Setup) (he : ExtraWords w.cfg) : ∀ (fs : List (Str × Str)) (s s' : Store DefVal),
    TablesWf w.cfg w.junk s → processFiles w s fs = .ok s' → TablesWf w.cfg w.junk s'
  | [], s, s', hs, h => by cases h; exact hs
  | (path, text) :: fs, s, s', hs, h => by
    simp only [processFiles] at h
    split at h
    · cases h
    · rename_i s1 o e
      exact C69_files w he fs s1 s' (C69_file w he s s1 hs path text o e) h

/-- C69: a new parser has well-formed tables. -/
theorem C69_empty (cfg : Cfg) (junk : Str → Str) : TablesWf cfg junk (Store.empty : Store DefVal) :=
  fun k n v h => by cases h

/-- C69: macros given to the constructor are fine. -/
theorem C69_macros (cfg : Cfg) (junk : Str → Str) (s : Store DefVal) (hs : TablesWf cfg junk s) (n t : Str) :
    TablesWf cfg junk (addDef s .macros n (.macro t)) := wf_add hs (by simp) ⟨t, rfl⟩

/-- C69: in well-formed tables a tag is defined exactly if it has an entry under `types`, and that entry
leads back to the tag. -/
theorem C69_tags (cfg : Cfg) (junk : Str → Str) (s : Store DefVal) (hs : TablesWf cfg junk s) (u : Bool) (tag : Str) :
    (dhas (s.defs (compKind u)) tag = true ↔ dhas (s.defs .types) (compWord u ++ ' ' :: tag) = true) ∧
    ∀ v, dget (s.defs .types) (compWord u ++ ' ' :: tag) = some v →
      v = .type ⟨compWord u, [.sym tag], [some [], some []]⟩ := by
  have h1 : dhas (s.defs (compKind u)) tag = true → TagEntry s (compWord u) tag := by
    intro h
    obtain ⟨v, hv⟩ := Option.isSome_iff_exists.1 h
    have := hs _ _ _ hv
    cases u <;> exact this.1
  have h2 : dhas (s.defs .types) (compWord u ++ ' ' :: tag) = true → dhas (s.defs (compKind u)) tag = true := by
    intro h
    obtain ⟨v, hv⟩ := Option.isSome_iff_exists.1 h
    rcases hs _ _ _ hv with ⟨h, _⟩ | ⟨u', tag', h, hh⟩ | ⟨tag', h, _⟩
    · exact absurd (by simp) (isName_blank h)
    · obtain ⟨rfl, rfl⟩ := compWord_tag h; exact hh
    · exact absurd h compWord_enum
  refine ⟨⟨fun h => ?_, h2⟩, fun v hv => ?_⟩
  · unfold dhas; rw [h1 h]; rfl
  · have := h1 (h2 (by unfold dhas; rw [hv]; rfl))
    unfold TagEntry at this
    rw [this] at hv
    exact (Option.some.inj hv).symm

/-- C69: the same for enums. -/
theorem C69_enums (cfg : Cfg) (junk : Str → Str) (s : Store DefVal) (hs : TablesWf cfg junk s) (tag : Str) :
    (dhas (s.defs .enums) tag = true ↔ dhas (s.defs .types) (c%"enum " ++ tag) = true) ∧
    ∀ v, dget (s.defs .types) (c%"enum " ++ tag) = some v → v = .type ⟨c%"enum", [.sym tag], [some [], some []]⟩ := by
  have h1 : dhas (s.defs .enums) tag = true → TagEntry s c%"enum" tag := by
    intro h
    obtain ⟨v, hv⟩ := Option.isSome_iff_exists.1 h
    exact (hs _ _ _ hv).1
  have h2 : dhas (s.defs .types) (c%"enum " ++ tag) = true → dhas (s.defs .enums) tag = true := by
    intro h
    obtain ⟨v, hv⟩ := Option.isSome_iff_exists.1 h
    rcases hs _ _ _ hv with ⟨h, _⟩ | ⟨u', tag', h, hh⟩ | ⟨tag', h, hh⟩
    · exact absurd (by simp) (isName_blank h)
    · exact absurd h.symm compWord_enum
    · obtain rfl : tag = tag' := by simpa using h
      exact hh
  refine ⟨⟨fun h => ?_, h2⟩, fun v hv => ?_⟩
  · have := h1 h
    unfold TagEntry at this
    unfold dhas; erw [this]; rfl
  · have := h1 (h2 (by unfold dhas; rw [hv]; rfl))
    unfold TagEntry at this
    erw [this] at hv
    exact (Option.some.inj hv).symm

theorem typeTable_get : ∀ (d : Dict Str DefVal) (n : Str),
    (∀ t, dget d n = some (.type t) → dget (typeTable d) n = some t) ∧ (dget d n = none → dget (typeTable d) n = none)
  | [], n => by simp [dget, typeTable]
  | (k, v) :: d, n => by
    have ih := typeTable_get d n
    by_cases hk : k = n
    · subst hk
      refine ⟨fun t h => ?_, fun h => by simp [dget] at h⟩
      have hv : v = .type t := by simpa [dget] using h
      subst hv
      simp [typeTable, dget]
    · have h1 : dget ((k, v) :: d) n = dget d n := by simp [dget, hk]
      have h2 : dget (typeTable ((k, v) :: d)) n = dget (typeTable d) n := by
        cases v <;> simp [typeTable, dget, hk]
      rw [h1, h2]
      exact ih

/-- C69: all entries under `types` are types. -/
theorem C69_types (cfg : Cfg) (junk : Str → Str) (s : Store DefVal) (hs : TablesWf cfg junk s) (n : Str) (v : DefVal)
    (h : dget (s.defs .types) n = some v) : ∃ t, v = .type t := by
  rcases hs _ _ _ h with ⟨_, t, h1, _⟩ | ⟨u, tag, rfl, hh⟩ | ⟨tag, rfl, hh⟩
  · exact ⟨t, h1⟩
  · exact ⟨_, (C69_tags cfg junk s hs u tag).2 v h⟩
  · exact ⟨_, (C69_enums cfg junk s hs tag).2 v h⟩

theorem typeTable_wf {cfg : Cfg} {junk : Str → Str} {s : Store DefVal} (hs : TablesWf cfg junk s) {n : Str} {t : CType} :
    dget (typeTable (s.defs .types)) n = some t ↔ dget (s.defs .types) n = some (.type t) := by
  obtain ⟨h1, h2⟩ := typeTable_get (s.defs .types) n
  refine ⟨fun h => ?_, h1 t⟩
  cases hd : dget (s.defs .types) n with
  | none => rw [h2 hd] at h; cases h
  | some v =>
    obtain ⟨t', rfl⟩ := C69_types cfg junk s hs n v hd
    rw [h1 t' hd] at h
    rw [Option.some.inj h]

/-- C69: resolving a type with the typedefs of well-formed tables never raises `ValueError`, and the result
has one qualifier group per level. -/
theorem C69_resolve (cfg : Cfg) (junk : Str → Str) (s : Store DefVal) (hs : TablesWf cfg junk s) (t : CType)
    (ht : TypeWf (TypeName cfg junk s) t) : evalType cfg (typeTable (s.defs .types)) t ≠ .error .valueError ∧
      ∀ r, evalType cfg (typeTable (s.defs .types)) t = .ok r → QualsMatch r := by
  refine C03_eval cfg _ t (fun n pt h => ?_) (ht t (.refl t)).quals
  have h := (typeTable_wf hs).1 h
  rcases hs _ _ _ h with ⟨_, t, h1, h2⟩ | ⟨u, tag, rfl, hh⟩ | ⟨tag, rfl, hh⟩
  · cases h1; exact (h2 _ (.refl _)).quals
  · cases (C69_tags cfg junk s hs u tag).2 _ h; rfl
  · cases (C69_enums cfg junk s hs tag).2 _ h; rfl

/-- Text that is not C, with some declarations in it: an array of structures with an enumeration inside and
a pointer to a structure not seen before, a function pointer type, and a declaration that breaks off. -/
def exBroken : Str :=
  c%"struct ; } struct S { enum E { A, B = 4 } e; struct T *p; } v[2]; int 3x; typedef const int (*f)(struct S); int g("

/-- What a run over one file leaves: the names in all tables. -/
def fileNames (text : Str) : Option (List (List Str)) :=
  match processFile exSetup Store.empty c%"t.h" text with
  | .ok (s, _) => some ([Kind.types, .structs, .unions, .enums, .variables, .functions, .values].map fun k => dkeys (s.defs k))
  | .error _ => none

/-- C69 at work: the tables left by that text are well-formed and not empty. -/
theorem C69_example : ExtraWords exSetup.cfg ∧
    fileNames exBroken = some [[c%"enum E", c%"struct T", c%"struct S", c%"f"], [c%"T", c%"S"], [], [c%"E"], [c%"v"], [],
      [c%"A", c%"B", c%"v"]] ∧
    ∃ s' out, processFile exSetup Store.empty c%"t.h" exBroken = .ok (s', out) ∧ TablesWf exSetup.cfg exSetup.junk s' := by
  have he : ExtraWords exSetup.cfg := by intro w hw; cases hw
  refine ⟨he, by decide +kernel, ?_⟩
  cases h : processFile exSetup Store.empty c%"t.h" exBroken with
  | error e =>
    have : fileNames exBroken = none := by unfold fileNames; rw [h]
    have h2 : fileNames exBroken ≠ none := by
      have : (fileNames exBroken).isSome = true := by decide +kernel
      intro e; rw [e] at this; cases this
    exact absurd this h2
  | ok r =>
    obtain ⟨s', out⟩ := r
    exact ⟨s', out, rfl, C69_file exSetup he _ _ (C69_empty _ _) _ _ _ h⟩

/-- The members recorded for a structure: name, and name of the type. -/
def fileMembers (text : Str) (n : Str) : Option (List (Option Str × Str)) :=
  match fileGet text .structs n with
  | some (some (.compound ms _)) => some (ms.map fun m => (m.name, m.type.spec))
  | _ => none

/-- C69 does not hold for the type of an unnamed member (`MemberWf` leaves it open): with a qualifier in front
it is the qualifier that is recorded as type.  Without one it is the structure. -/
theorem C69_counterexample_unnamed :
    fileMembers c%"struct S { const struct T { int a; }; };" c%"S" = some [(none, c%"const")] ∧
    fileMembers c%"struct S { struct T { int a; }; };" c%"S" = some [(none, c%"struct T")] := ⟨by rfl, by rfl⟩

end Pyclib
