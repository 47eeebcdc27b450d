import Verif.Spec.TextWords
import Verif.Proof.GrammarNames2
import Verif.Props.FileFrame
import Verif.Props.Preproc
/-! C80, C81: what `process_all` raises, and what it can record, whatever the text of the files. -/
namespace Pyclib
open Spec

/-! ### Words -/

theorem isIdC_eq (c : Char) : isIdC c = identChar c := by
  simp only [isIdC, isWordC, identChar, beq_eq_decide]

theorem all_isIdC (w : Str) : w.all isIdC = w.all identChar := by
  rw [show isIdC = identChar from funext isIdC_eq]

theorem hasWord_of {w text : Str} (h : WordAt w ⟨' ', text⟩) : HasWord w text := by
  obtain ⟨h0, y, b, ⟨a, h1, h2⟩, h3, h4, h5⟩ := h
  refine ⟨by rw [← all_isIdC]; exact h0, a, b, by rw [List.append_assoc, ← h4]; exact h1, fun c hc => ?_, fun c hc => ?_⟩
  · rw [← isIdC_eq]
    rw [h2, List.getLastD_eq_getLast?, hc] at h3
    exact h3
  · rw [← isIdC_eq]
    exact h5 c hc

theorem hasIdent_of {w text : Str} (h : IdentAt w ⟨' ', text⟩) : HasIdent w text := by
  refine ⟨hasWord_of h.1, ?_⟩
  have h2 := h.2
  cases w with
  | nil => simp at h2
  | cons c r =>
    refine ⟨c, r, rfl, ?_⟩
    simpa [isIdentStart] using h2

theorem hasAnon_of {w text : Str} (h : OpenAt w ⟨' ', text⟩) : HasAnon w text := by
  obtain ⟨y, b, ⟨a, h1, h2⟩, h3, h4, h5, h6⟩ := h
  refine ⟨a, b, by rw [List.append_assoc, ← h4]; exact h1, fun c hc => ?_, fun c hc => ?_, h6⟩
  · rw [← isIdC_eq]
    rw [h2, List.getLastD_eq_getLast?, hc] at h3
    exact h3
  · rw [← isIdC_eq]
    exact h5 c hc

theorem hasTag_of {w t text : Str} (h : TagAt ⟨' ', text⟩ w t) : HasTag w t text :=
  ⟨hasWord_of h.1, h.2.imp hasIdent_of fun h => ⟨hasAnon_of h.1, h.2⟩⟩

theorem mayDefine_of {text : Str} {k : Kind} {n : Str} (h : MayAdd ⟨' ', text⟩ k n) : MayDefine text k n := by
  cases k <;> simp only [MayAdd, MayDefine] at h ⊢
  case types =>
    rcases h with h | ⟨w, t, h1, h2, h3⟩
    · exact .inl ⟨hasIdent_of h.1, hasWord_of h.2⟩
    · exact .inr ⟨w, t, h1, h2, hasTag_of h3⟩
  all_goals first
    | exact hasTag_of h
    | exact hasIdent_of h

theorem adds_at_change {x : Pos} {s s' : Store DefVal} (h : AddsAt x s s') {k : Kind} {n : Str}
    (hn : dget (s'.defs k) n ≠ dget (s.defs k) n) : MayAdd x k n := by
  induction h with
  | refl => exact absurd rfl hn
  | add s' k' n' v h1 _ _ ih =>
    rw [defs_addDef] at hn
    by_cases e : k' = k ∧ n' = n
    · obtain ⟨rfl, rfl⟩ := e
      exact h1
    · rw [if_neg e] at hn
      exact ih hn

/-! ### Errors of the preprocessor -/

theorem doPack_error {E : Type} {i : Nat} {s : PPState E} {txt : Str} {e : PyErr} (h : doPack i s txt = .error e) :
    e = .indexError ∧ ((splitOnC ',' txt).map strip).head? = some c%"pop" := by
  simp only [doPack, packEffect] at h
  split at h
  · cases h
  · split at h
    · rename_i hp
      refine ⟨?_, of_decide_eq_true hp⟩
      split at h
      · rename_i e1
        cases h
        split at e1
        · split at e1 <;> cases e1
          rfl
        · cases e1
      · split at h
        · cases h
        · split at h <;> cases h
          rfl
    · cases h

theorem ppStep_pragma_error {E : Type} {sem : PPSem E} {i : Nat} {s : PPState E} {r : Str} {e : PyErr}
    (hne : s.ifTrue ≠ []) (h : ppStep sem i s (.pragma r) = .error e) : e = .indexError ∧ PopLine sem (.pragma r) := by
  simp only [ppStep] at h
  split at h
  · contradiction
  · cases h
  · rename_i ts ht
    split at h
    · cases h
    · rename_i txt hp
      split at h
      · rename_i e1
        cases h
        obtain ⟨h1, h2⟩ := doPack_error e1
        refine ⟨h1, r, s.env, rfl, _, ?_, txt, hp, h2⟩
        by_cases ha : ts.all id = true
        · rw [if_pos ha]; exact .inr rfl
        · rw [if_neg ha]; exact .inl rfl
      · cases h

/-- What the preprocessor raises. -/
theorem pp_causes {E : Type} (sem : PPSem E) (env : E) (ls : List Line) {e : PyErr}
    (h : ppRun sem 0 (PPState.init env) ls = .error e) :
    (e = .indexError ∧ Unmatched ls) ∨ (e = .attributeError ∧ .badName ∈ ls) ∨
      (e = .indexError ∧ ∃ l ∈ ls, PopLine sem l) := by
  obtain ⟨a, l, c, s1, o1, h1, h2, h3⟩ := ppRun_error h
  obtain ⟨w1, w2⟩ := ppRun_depth (by simp [PPState.init]) h2
  have hne : s1.ifTrue ≠ [] := by intro h0; simp [h0] at w1
  rcases ppStep_error w1 h3 with ⟨h4, h6⟩ | ⟨t, h4⟩ | ⟨h4, h5, h6⟩
  · exact .inr (.inl ⟨h6, by simp [h1, h4]⟩)
  · subst h4
    obtain ⟨h7, h8⟩ := ppStep_pragma_error hne h3
    exact .inr (.inr ⟨h7, _, by simp [h1], h8⟩)
  · left
    refine ⟨h6, ⟨a, l, c, h1, h4, ?_⟩⟩
    simp [PPState.init, h5] at w2
    omega

theorem noEmpty_gram {w : Setup} (hf : [] ∉ w.cfg.extraTypes) (hm : [] ∉ w.mods) (packs : List (Nat × Option Nat))
    (text : Str) : NoEmpty (w.gram packs text) := by
  refine ⟨?_, hm⟩
  show [] ∉ fundWords w.cfg
  intro h
  simp only [fundWords, baseTypes, List.mem_append] at h
  rcases h with (h | h) | (h | h) | h
  · revert h; decide
  · revert h; decide
  · revert h; decide
  · revert h
    unfold numTypes
    cases w.cfg.py312 <;> cases w.cfg.win32 <;> decide
  · exact hf h

theorem preprocess_error {E : Type} {sem : PPSem E} {env : E} {text : Str} {e : PyErr}
    (h : preprocess sem env (removeComments text) = .error e) :
    ppRun sem 0 (PPState.init env) (ppLines text) = .error e := by
  unfold preprocess at h
  split at h
  · rename_i e1 h1
    cases h
    exact h1
  · cases h

/-- **C80.** Whatever the text of a file, an exception leaves `process_all` for one of four reasons only: an `#elif`,
`#else` or `#endif` without `#if`; a `#define` or `#undef` without a name; a `#pragma pack` that pops what was not pushed;
a `typedef` in a text with a calling convention. -/
theorem C80_causes {w : Setup} (hf : [] ∉ w.cfg.extraTypes) (hm : [] ∉ w.mods) (s : Store DefVal) (path text : Str)
    {e : PyErr} (h : processFile w s path text = .error e) :
    (e = .indexError ∧ Unmatched (ppLines text)) ∨ (e = .attributeError ∧ .badName ∈ ppLines text) ∨
      (e = .indexError ∧ ∃ l ∈ ppLines text, PopLine w.sem l) ∨
      (e = .typeError ∧ ∃ st out, preprocess w.sem (setFile s (some path)) (removeComments text) = .ok (st, out) ∧
        HasWord c%"typedef" out ∧ (HasWord c%"__cdecl" out ∨ HasWord c%"__stdcall" out)) := by
  unfold processFile at h
  split at h
  · rename_i e1 h1
    cases h
    rcases pp_causes _ _ _ (preprocess_error h1) with h2 | h2 | h2
    · exact .inl h2
    · exact .inr (.inl h2)
    · exact .inr (.inr (.inl h2))
  · rename_i st out h1
    have h2 := (in_parseDefs (noEmpty_gram hf hm st.packList out) st.env out).2
    split at h
    · cases h
    · rename_i e1 h3
      cases h
      rw [h3] at h2
      obtain ⟨h4, h5, h6⟩ := h2 _ rfl
      exact .inr (.inr (.inr ⟨h4, st, out, h1, hasWord_of h5, h6.imp hasWord_of hasWord_of⟩))

/-- **C80.** Whatever the declarations look like: a file whose conditionals are closed in order, whose definitions have
names, that does not pop packings, and that has no calling convention after preprocessing is processed. -/
theorem C80_never {w : Setup} (hf : [] ∉ w.cfg.extraTypes) (hm : [] ∉ w.mods) (s : Store DefVal) (path text : Str)
    (h1 : ¬ Unmatched (ppLines text)) (h2 : .badName ∉ ppLines text) (h3 : ∀ l ∈ ppLines text, ¬ PopLine w.sem l)
    (h4 : ∀ st out, preprocess w.sem (setFile s (some path)) (removeComments text) = .ok (st, out) →
      ¬ HasWord c%"__cdecl" out ∧ ¬ HasWord c%"__stdcall" out) :
    ∃ s' out, processFile w s path text = .ok (s', out) := by
  cases h : processFile w s path text with
  | ok p => exact ⟨p.1, p.2, rfl⟩
  | error e =>
    exfalso
    rcases C80_causes hf hm s path text h with ⟨_, a⟩ | ⟨_, a⟩ | ⟨_, l, a, b⟩ | ⟨_, st, out, a, _, b⟩
    · exact h1 a
    · exact h2 a
    · exact h3 l a b
    · exact b.elim (h4 st out a).1 (h4 st out a).2

/-- C80, the other direction for the preprocessor: closing directives without `#if` and definitions without a name always
raise. -/
theorem C80_raises (w : Setup) (s : Store DefVal) (path text : Str)
    (h : Unmatched (ppLines text) ∨ .badName ∈ ppLines text) : ∃ e, processFile w s path text = .error e := by
  have : ∃ e, ppRun w.sem 0 (PPState.init (setFile s (some path))) (ppLines text) = .error e := by
    rcases h with h | h
    · exact C19_unmatched_raises _ _ _ h
    · obtain ⟨a, b, hab⟩ := List.append_of_mem h
      rw [hab]
      cases hr : ppRun w.sem 0 (PPState.init (setFile s (some path))) (a ++ .badName :: b) with
      | error e => exact ⟨e, rfl⟩
      | ok p =>
        exfalso
        obtain ⟨s1, o1, o2, h1, h2, _⟩ := ppRun_append_ok (s2 := p.1) (os := p.2) hr
        obtain ⟨s2, o, os', h3, _, _⟩ := ppRun_cons_ok h2
        simp [ppStep] at h3
  obtain ⟨e, he⟩ := this
  refine ⟨e, ?_⟩
  unfold processFile preprocess
  rw [show (splitOnC '\n' (joinLines (removeComments text))).map classify = ppLines text from rfl, he]

/-- **C80** for all files of a `process_all`: an exception comes from one of them, with the tables that the files before it
left. -/
theorem C80_files {w : Setup} : ∀ (fs : List (Str × Str)) (s : Store DefVal) {e : PyErr}, processFiles w s fs = .error e →
    ∃ a f b s', fs = a ++ f :: b ∧ processFiles w s a = .ok s' ∧ processFile w s' f.1 f.2 = .error e
  | [], s, e, h => by simp [processFiles] at h
  | (path, text) :: fs, s, e, h => by
    simp only [processFiles] at h
    split at h
    · rename_i e1 h1
      cases h
      exact ⟨[], _, fs, s, rfl, rfl, h1⟩
    · rename_i s1 out h1
      obtain ⟨a, f, b, s', h2, h3, h4⟩ := C80_files fs s1 h
      refine ⟨(path, text) :: a, f, b, s', by rw [h2]; rfl, ?_, h4⟩
      simp only [processFiles, h1]
      exact h3

/-! ### Names -/

/-- **C81.** Whatever the text, `parse_defs` changes only definitions whose names stand in the text as whole identifiers:
functions, variables, values; types with a `typedef`; tags with the keyword `struct`, `union` or `enum`, or generated
names if an opening brace follows the keyword. -/
theorem C81_parse {g : Gram} (hg : NoEmpty g) (s : Store DefVal) (text : Str) {k : Kind} {n : Str}
    (h : dget ((parseDefs g s text).1.defs k) n ≠ dget (s.defs k) n) : MayDefine text k n :=
  mayDefine_of (adds_at_change (in_parseDefs hg s text).1 h)

theorem defineIn_change {ev : EvalExpr} {s : Store DefVal} {name rest : Str} {k : Kind} {n : Str}
    (h : dget ((defineIn ev s name rest).defs k) n ≠ dget (s.defs k) n) :
    name = n ∧ (k = .macros ∨ k = .fnmacros ∨ k = .values) := by
  simp only [defineIn] at h
  split at h
  · rw [defs_addDef] at h
    by_cases e : Kind.fnmacros = k ∧ name = n
    · exact ⟨e.2, .inr (.inl e.1.symm)⟩
    · rw [if_neg e] at h; exact absurd rfl h
  · split at h
    · rw [defs_addDef, defs_addDef] at h
      by_cases e : Kind.values = k ∧ name = n
      · exact ⟨e.2, .inr (.inr e.1.symm)⟩
      · rw [if_neg e] at h
        by_cases e : Kind.macros = k ∧ name = n
        · exact ⟨e.2, .inl e.1.symm⟩
        · rw [if_neg e] at h; exact absurd rfl h
    · rw [defs_addDef] at h
      by_cases e : Kind.fnmacros = k ∧ name = n
      · exact ⟨e.2, .inr (.inl e.1.symm)⟩
      · rw [if_neg e] at h; exact absurd rfl h

/-- The text has a `#define` or `#undef` of the name. -/
def Spec.MayMacro (ls : List Line) (k : Kind) (n : Str) : Prop :=
  ((k = .macros ∨ k = .fnmacros ∨ k = .values) ∧ ∃ r, .define n r ∈ ls) ∨ (k = .macros ∧ .undef n ∈ ls)

theorem pp_change {w : Setup} {ls : List Line} {s : Store DefVal} {st : PPState (Store DefVal)} {os : List Out}
    (h : ppRun w.sem 0 (PPState.init s) ls = .ok (st, os)) {k : Kind} {n : Str} (hn : ¬ MayMacro ls k n) :
    dget (st.env.defs k) n = dget (s.defs k) n := by
  refine ppRun_env (sem := w.sem) (P := fun env : Store DefVal => dget (env.defs k) n = dget (s.defs k) n) ?_ ?_ h rfl
  · intro n' r r' hm env he
    rw [← he]
    by_cases hc : dget ((defineIn w.ev env n' r').defs k) n = dget (env.defs k) n
    · exact hc
    · obtain ⟨rfl, hk⟩ := defineIn_change hc
      exact absurd (.inl ⟨hk, r, hm⟩) hn
  · intro n' hm env he
    show dget ((remDef env .macros n').1.defs k) n = _
    rw [defs_remDef, if_neg]
    · exact he
    · rintro ⟨rfl, rfl⟩
      exact hn (.inr ⟨rfl, hm⟩)

/-- **C81.** Whatever the text of a file, a definition that `process_all` adds or changes has its name in the text: as a
whole identifier of the preprocessed text, or in a `#define` or `#undef` line. -/
theorem C81_file {w : Setup} (hf : [] ∉ w.cfg.extraTypes) (hm : [] ∉ w.mods) {s s' : Store DefVal} {path text out : Str}
    (h : processFile w s path text = .ok (s', out)) {k : Kind} {n : Str}
    (hn : dget (s'.defs k) n ≠ dget (s.defs k) n) : MayDefine out k n ∨ MayMacro (ppLines text) k n := by
  unfold processFile at h
  split at h
  · cases h
  · rename_i st out' h1
    split at h
    · rename_i s2 h3
      injection h with h
      injection h with ha hb
      subst ha hb
      by_cases hp : dget (st.env.defs k) n = dget (s.defs k) n
      · left
        refine C81_parse (noEmpty_gram hf hm st.packList out') st.env out' ?_
        rw [h3, hp]
        exact hn
      · right
        by_cases hc : MayMacro (ppLines text) k n
        · exact hc
        · exfalso
          unfold preprocess at h1
          split at h1
          · cases h1
          · rename_i st' os e'
            cases h1
            exact hp (pp_change (s := setFile s (some path)) e' hc)
    · cases h

/-! ### Examples -/

/-- A text with mistakes of many kinds. -/
def roughText : Str :=
  c%"class A { public: int x; };\n}} int f(int a; @ # 3 template<T> x;\n#error no\nstruct { int : } s;\nint g(int a);\n\"open\n#if 1"

/-- Search for a word; `p` tells whether an identifier character is in front. -/
def wordIn (w : Str) : Bool → Str → Bool
  | p, [] => !p && w.isEmpty
  | p, c :: s => (!p && w.isPrefixOf (c :: s) && !((c :: s).drop w.length).head?.any identChar) || wordIn w (identChar c) s

theorem wordIn_of {w b : Str} (hb : ∀ c, b.head? = some c → identChar c = false) : ∀ (a : Str) (p : Bool),
    (a = [] → p = false) → (∀ c, a.getLast? = some c → identChar c = false) → wordIn w p (a ++ (w ++ b)) = true
  | [], p, hp, _ => by
    have hp := hp rfl
    subst hp
    rw [List.nil_append]
    cases hs : w ++ b with
    | nil => simp [wordIn, (List.append_eq_nil_iff.1 hs).1]
    | cons c s =>
      have h1 : w.isPrefixOf (c :: s) = true := by rw [← hs]; simp
      have h2 : (c :: s).drop w.length = b := by rw [← hs]; simp
      unfold wordIn
      rw [h1, h2]
      cases b with
      | nil => rfl
      | cons d b => simp [hb d rfl]
  | c :: a, p, _, ha => by
    rw [List.cons_append]
    unfold wordIn
    rw [Bool.or_eq_true]
    right
    refine wordIn_of hb a _ (fun e => ?_) (fun d hd => ha d ?_)
    · subst e
      exact ha c rfl
    · cases a with
      | nil => cases hd
      | cons e a => rw [List.getLast?_cons_cons]; exact hd

/-- A check for words. -/
theorem wordIn_hasWord {w text : Str} (h : HasWord w text) : wordIn w false text = true := by
  obtain ⟨_, a, b, e, h1, h2⟩ := h
  rw [e, List.append_assoc]
  exact wordIn_of h2 a false (fun _ => rfl) h1

theorem not_hasWord {w text : Str} (h : wordIn w false text = false) : ¬ HasWord w text := by
  intro hw
  rw [wordIn_hasWord hw] at h
  cases h

/-- The text meets the hypotheses of `C80_never`, and the declaration that can be read is recorded. -/
theorem C80_example : (∃ s' out, processFile exSetup Store.empty c%"t.h" roughText = .ok (s', out)) ∧
    (∀ s' out, processFile exSetup Store.empty c%"t.h" roughText = .ok (s', out) →
      (dget (s'.defs .functions) c%"g").isSome = true) := by
  constructor
  · refine C80_never (by decide) (by decide) _ _ _ ?_ (by decide +kernel) ?_ ?_
    · rintro ⟨a, c, b, h1, h2, _⟩
      have : ∀ l ∈ ppLines roughText, needsIf l = false := by decide +kernel
      rw [this c (by rw [h1]; simp)] at h2
      cases h2
    · rintro l hl ⟨r, env, rfl, _⟩
      have : ∀ l ∈ ppLines roughText, (match l with | .pragma _ => false | _ => true) = true := by decide +kernel
      exact absurd (this _ hl) (by simp)
    · intro st out h
      have : ∀ p, preprocess exSetup.sem (setFile Store.empty (some c%"t.h")) (removeComments roughText) = .ok p →
          wordIn c%"__cdecl" false p.2 = false ∧ wordIn c%"__stdcall" false p.2 = false := by
        intro p hp
        have e : (match preprocess exSetup.sem (setFile Store.empty (some c%"t.h")) (removeComments roughText) with
          | .ok p => some p.2 | .error _ => none) = some
            c%"class A { public: int x; };\n}} int f(int a; @ # 3 template<T> x;\n\nstruct { int : } s;\nint g(int a);\n\"open\n" := by
          decide +kernel
        rw [hp] at e
        simp only [Option.some.injEq] at e
        rw [e]
        exact ⟨by decide +kernel, by decide +kernel⟩
      exact ⟨not_hasWord (this _ h).1, not_hasWord (this _ h).2⟩
  · intro s' out h
    have e : (match processFile exSetup Store.empty c%"t.h" roughText with
      | .ok p => (dget (p.1.defs .functions) c%"g").isSome | .error _ => false) = true := by decide +kernel
    rw [h] at e
    exact e

/-- A calling convention alone in front of a parenthesis stops the processing of all files: `process_typedef` has no
exception handler, while the same declarator of a variable is only skipped. -/
theorem C80_typedef_counterexample :
    processFile exSetup Store.empty c%"t.h" c%"typedef int __stdcall (f);\nint g(int a);" = .error .typeError ∧
    (∃ s' out, processFile exSetup Store.empty c%"t.h" c%"int __stdcall (f);\nint g(int a);" = .ok (s', out) ∧
      (dget (s'.defs .functions) c%"g").isSome = true ∧ dget (s'.defs .variables) c%"f" = none) := by
  refine ⟨by rfl, ?_⟩
  have e : (match processFile exSetup Store.empty c%"t.h" c%"int __stdcall (f);\nint g(int a);" with
    | .ok p => (dget (p.1.defs .functions) c%"g").isSome && (dget (p.1.defs .variables) c%"f").isNone
    | .error _ => false) = true := by rfl
  split at e
  · rename_i p h
    simp only [Bool.and_eq_true, Option.isNone_iff_eq_none] at e
    exact ⟨p.1, p.2, h, e.1, e.2⟩
  · cases e

/-- C81 on the text above: `g` is recorded, and has to be an identifier of the text; `lass` is not, although it
is part of a word. -/
theorem C81_example : HasIdent c%"g" roughText ∧ ¬ MayDefine roughText .functions c%"lass" := by
  constructor
  · have h : (dget ((parseDefs exGram Store.empty roughText).1.defs .functions) c%"g").isSome = true := by decide +kernel
    have := C81_parse (g := exGram) (k := .functions) (n := c%"g") ⟨by decide +kernel, by decide⟩ Store.empty roughText (by
      intro e
      rw [e] at h
      cases h)
    exact this
  · rintro ⟨h, _⟩
    exact absurd (wordIn_hasWord h) (by decide +kernel)

end Pyclib
