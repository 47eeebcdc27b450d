import Verif.Spec.Bodies
import Verif.Props.Robust
/-! C96: a struct, union or enum that was recorded is not lost: mentions in later text leave it alone. -/
namespace Pyclib
open Spec

theorem hasBody_of {w n text : Str} (h : BodyAt w n ⟨' ', text⟩) : HasBody w n text := by
  obtain ⟨y, ws, b, ⟨a, h1, h2⟩, h3, h4, ⟨h5, h6⟩, h7, h8⟩ := h
  refine ⟨a, ws, b, by rw [← h4]; exact h1, fun c hc => ?_, ⟨h5, fun c hc => ?_⟩, fun c hc => ?_, h8⟩
  · rw [← isIdC_eq]
    rw [h2, List.getLastD_eq_getLast?, hc] at h3
    exact h3
  · have := List.all_eq_true.1 h6 c hc
    simpa [isWhite, or_assoc] using this
  · rw [← isIdC_eq]
    exact h7 c hc

theorem dhas_some {α : Type} {d : Dict Str α} {n : Str} {v : α} (h : dget d n = some v) : dhas d n = true := by
  simp [dhas, h]

theorem tagWord_comp {k : Kind} {w : Str} (h : tagWord k = some w) : ∃ u, k = compKind u ∧ w = compWord u := by
  cases k <;> cases h
  · exact ⟨false, rfl, rfl⟩
  · exact ⟨true, rfl, rfl⟩

theorem adds_kept {x : Pos} {s s' : Store DefVal} (h : AddsAt x s s') {u : Bool} {n : Str} {v : DefVal}
    (hv : dget (s.defs (compKind u)) n = some v) : ∃ v', dget (s'.defs (compKind u)) n = some v' ∧
      (v' = v ∨ BodyAt (compWord u) n x ∧ Complete v') := by
  induction h with
  | refl => exact ⟨v, hv, .inl rfl⟩
  | add s' k' n' v1 _ h2 _ ih =>
    obtain ⟨v', h3, h4⟩ := ih
    rw [defs_addDef]
    by_cases e : k' = compKind u ∧ n' = n
    · rw [if_pos e]
      obtain ⟨rfl, rfl⟩ := e
      obtain ⟨h5, h6⟩ := (h2 (dhas_some h3)).1 u rfl
      exact ⟨v1, rfl, .inr ⟨h5, h6⟩⟩
    · rw [if_neg e]
      exact ⟨v', h3, h4⟩

theorem adds_enum {x : Pos} {s s' : Store DefVal} (h : AddsAt x s s') {n : Str} {v : DefVal}
    (hv : dget (s.defs .enums) n = some v) : dget (s'.defs .enums) n = some v := by
  induction h with
  | refl => exact hv
  | add s' k' n' v1 _ h2 _ ih =>
    rw [defs_addDef]
    by_cases e : k' = .enums ∧ n' = n
    · obtain ⟨rfl, rfl⟩ := e
      exact absurd rfl (h2 (dhas_some ih)).2
    · rw [if_neg e]
      exact ih

/-- **C96.** Whatever the text, `parse_defs` changes a recorded struct or union only where the text has a body for its tag,
and then to a definition with members. -/
theorem C96_parse {g : Gram} (hg : NoEmpty g) (s : Store DefVal) (text : Str) {k : Kind} {w n : Str} {v : DefVal}
    (hk : tagWord k = some w) (hv : dget (s.defs k) n = some v) :
    ∃ v', dget ((parseDefs g s text).1.defs k) n = some v' ∧ (v' = v ∨ HasBody w n text ∧ Complete v') := by
  obtain ⟨u, rfl, rfl⟩ := tagWord_comp hk
  obtain ⟨v', h1, h2⟩ := adds_kept (in_parseDefs hg s text).1 hv
  exact ⟨v', h1, h2.imp id fun h => ⟨hasBody_of h.1, h.2⟩⟩

/-- **C96.** Whatever the text, `parse_defs` does not change an enum that is recorded. -/
theorem C96_parse_enum {g : Gram} (hg : NoEmpty g) (s : Store DefVal) (text : Str) {n : Str} {v : DefVal}
    (hv : dget (s.defs .enums) n = some v) : dget ((parseDefs g s text).1.defs .enums) n = some v :=
  adds_enum (in_parseDefs hg s text).1 hv

theorem not_mayMacro {ls : List Line} {k : Kind} {n : Str} (h : k = .structs ∨ k = .unions ∨ k = .enums) :
    ¬ MayMacro ls k n := by
  rintro (⟨h1 | h1 | h1, _⟩ | ⟨h1, _⟩) <;> subst h1 <;> simp at h

theorem file_parts {w : Setup} {s s' : Store DefVal} {path text out : Str}
    (h : processFile w s path text = .ok (s', out)) : ∃ packs s1, (parseDefs (w.gram packs out) s1 out).1 = s' ∧
      ∀ k n, (k = .structs ∨ k = .unions ∨ k = .enums) → dget (s1.defs k) n = dget (s.defs k) n := by
  unfold processFile at h
  split at h
  · cases h
  · rename_i st out' h1
    split at h
    · rename_i s2 h3
      injection h with h
      injection h with ha hb
      subst ha hb
      refine ⟨st.packList, st.env, by rw [h3], fun k n hk => ?_⟩
      unfold preprocess at h1
      split at h1
      · cases h1
      · rename_i st' os e'
        cases h1
        exact pp_change (s := setFile s (some path)) e' (not_mayMacro hk)
    · cases h

/-- **C96** for a file. -/
theorem C96_file {w : Setup} (hf : [] ∉ w.cfg.extraTypes) (hm : [] ∉ w.mods) {s s' : Store DefVal} {path text out : Str}
    (h : processFile w s path text = .ok (s', out)) {k : Kind} {kw n : Str} {v : DefVal}
    (hk : tagWord k = some kw) (hv : dget (s.defs k) n = some v) :
    ∃ v', dget (s'.defs k) n = some v' ∧ (v' = v ∨ HasBody kw n out ∧ Complete v') := by
  obtain ⟨packs, s1, rfl, h2⟩ := file_parts h
  refine C96_parse (noEmpty_gram hf hm packs out) s1 out hk ?_
  rw [h2 k n (by cases k <;> cases hk <;> simp)]
  exact hv

/-- **C96** for all files of a `process_all`, structs and unions: what was recorded is there afterwards, as it was, or
defined with members by a file that has a body for the tag after preprocessing. -/
theorem C96_files {w : Setup} (hf : [] ∉ w.cfg.extraTypes) (hm : [] ∉ w.mods) {k : Kind} {kw n : Str}
    (hk : tagWord k = some kw) : ∀ (fs : List (Str × Str)) (s s' : Store DefVal) (v : DefVal),
    processFiles w s fs = .ok s' → dget (s.defs k) n = some v → ∃ v', dget (s'.defs k) n = some v' ∧
      (v' = v ∨ Complete v' ∧ ∃ a f b s1 s2 out, fs = a ++ f :: b ∧ processFiles w s a = .ok s1 ∧
        processFile w s1 f.1 f.2 = .ok (s2, out) ∧ HasBody kw n out)
  | [], s, s', v, h, hv => by
    cases h
    exact ⟨v, hv, .inl rfl⟩
  | (path, text) :: fs, s, s', v, h, hv => by
    simp only [processFiles] at h
    split at h
    · cases h
    · rename_i s1 out h1
      obtain ⟨v1, h2, h3⟩ := C96_file hf hm h1 hk hv
      obtain ⟨v2, h4, h5⟩ := C96_files hf hm hk fs s1 s' v1 h h2
      refine ⟨v2, h4, ?_⟩
      rcases h5 with rfl | ⟨hc, a, f, b, t1, t2, o, e1, e2, e3⟩
      · rcases h3 with rfl | ⟨h3, h6⟩
        · exact .inl rfl
        · exact .inr ⟨h6, [], (path, text), fs, s, s1, out, rfl, rfl, h1, h3⟩
      · refine .inr ⟨hc, (path, text) :: a, f, b, t1, t2, o, by rw [e1]; rfl, ?_, e3⟩
        simp only [processFiles, h1]
        exact e2

/-- **C96** for all files of a `process_all`: a struct or union with members keeps members, and an enum stays as it is,
whatever the files say. -/
theorem C96_complete {w : Setup} (hf : [] ∉ w.cfg.extraTypes) (hm : [] ∉ w.mods) {fs : List (Str × Str)}
    {s s' : Store DefVal} (h : processFiles w s fs = .ok s') {k : Kind} {kw n : Str} {v : DefVal}
    (hk : tagWord k = some kw) (hv : dget (s.defs k) n = some v) (hc : Complete v) :
    ∃ v', dget (s'.defs k) n = some v' ∧ Complete v' := by
  obtain ⟨v', h1, h2⟩ := C96_files hf hm hk fs s s' v h hv
  refine ⟨v', h1, ?_⟩
  rcases h2 with rfl | h2
  · exact hc
  · exact h2.1

theorem C96_enums {w : Setup} (hf : [] ∉ w.cfg.extraTypes) (hm : [] ∉ w.mods) {n : Str} {v : DefVal} :
    ∀ (fs : List (Str × Str)) (s s' : Store DefVal), processFiles w s fs = .ok s' → dget (s.defs .enums) n = some v →
      dget (s'.defs .enums) n = some v
  | [], s, s', h, hv => by
    cases h
    exact hv
  | (path, text) :: fs, s, s', h, hv => by
    simp only [processFiles] at h
    split at h
    · cases h
    · rename_i s1 out h1
      refine C96_enums hf hm fs s1 s' h ?_
      obtain ⟨packs, s2, rfl, h2⟩ := file_parts h1
      refine C96_parse_enum (noEmpty_gram hf hm packs out) s2 out ?_
      rw [h2 .enums n (by simp)]
      exact hv

/-! ### Examples -/

/-- Number of members of what is recorded for a tag after two files. -/
def tagMembers (a b : Str) (k : Kind) (n : Str) : Option Nat :=
  match processFiles exSetup Store.empty [(c%"a.h", a), (c%"b.h", b)] with
  | .ok s => match dget (s.defs k) n with
    | some (.compound ms _) => some ms.length
    | some (.enum ms) => some ms.length
    | _ => none
  | .error _ => none

/-- A struct, a union and an enum are mentioned again in a second file, in a prototype, in a declaration without a body and
with an empty body; a further body replaces the members, also under a name with white space and a comment around it. -/
theorem C96_example :
    tagMembers c%"struct S { int a; int b; };\n" c%"struct S;\nint f(struct S *p);\nstruct S { };\n" .structs c%"S" = some 2 ∧
    tagMembers c%"union U { int a; };\n" c%"typedef union U V;\n" .unions c%"U" = some 1 ∧
    tagMembers c%"enum E { A, B };\n" c%"enum E x;\nenum E { C };\n" .enums c%"E" = some 2 ∧
    tagMembers c%"struct S;\n" c%"struct S { int a; };\n" .structs c%"S" = some 1 ∧
    tagMembers c%"struct S { int a; int b; };\n" c%"struct /**/\n S\n{ int a; };\n" .structs c%"S" = some 1 := by
  decide +kernel

/-- A mention of an enum in front of its definition: the definition is ignored for good, and the enumerators have no
values. -/
theorem C96_counterexample_enum :
    tagMembers c%"void f(enum E x);\n" c%"enum E { A, B };\n" .enums c%"E" = some 0 ∧
    (fileGet c%"enum E f(void);\nenum E { A, B };\n" .values c%"A").map Option.isSome = some false ∧
    (fileGet c%"enum E { A, B };\nenum E f(void);\n" .values c%"A").map Option.isSome = some true := by
  decide +kernel

end Pyclib
