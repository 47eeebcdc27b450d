import Verif.Proof.RespaceDecl
import Verif.Props.Grammar
/-
C59 for every text, whether or not it is a sequence of declarations that the grammar recognises.
-/
namespace Pyclib
open Spec

/-- C59: two texts that differ in the white space between their tokens only, and have the same packing in force at each character, record the same
definitions, whatever the texts are.  The white space between a sign behind `)` or `:` and a number is kept (`C59_counterexample_sign`).  What
pyparsing makes of the text of a struct without braces does not depend on white space (`hj`). -/
theorem C59_texts_partial {g : Gram} (hg : gramOk g = true) (s : St) {pack pack' : Nat → Option Nat} {text text' : Str}
    (hj : ∀ t t', Respaced pack pack' .free ';' t t' → g.junk t = g.junk t') (h : Respaced pack pack' .free ' ' text text') :
    parseDefs (g.withPack pack) s text = parseDefs (g.withPack pack') s text' :=
  parseDefs_rel (g := g.withPack pack) (g' := g.withPack pack') ⟨rfl, rfl, rfl, hj, noEmpty_of_ok (g := g.withPack pack) hg⟩ s h

/-- C59 where there is no `#pragma pack`. -/
theorem C59_blanks_partial {g : Gram} (hg : gramOk g = true) {c : Option Nat} (hc : g.pack = fun _ => c) (s : St) {text text' : Str}
    (hj : ∀ t t', Respaced (fun _ => c) (fun _ => c) .free ';' t t' → g.junk t = g.junk t')
    (h : Respaced (fun _ => c) (fun _ => c) .free ' ' text text') : parseDefs g s text = parseDefs g s text' := by
  have := C59_texts_partial hg s hj h
  unfold Gram.withPack at this
  rwa [← hc] at this

/-! ### Examples -/

/-- A check for `Gap`. -/
def gapB (k : Ctx) (p : Char) (w w' : Str) (c : Char) : Bool :=
  w == w' || (!kept k c && ((!w.isEmpty && !w'.isEmpty) || mayTouch k p c))

/-- A check for `Respaced`, where the packing is the same everywhere. -/
def respB : Nat → Ctx → Char → Str → Str → Bool
  | 0, _, _, _, _ => false
  | n + 1, k, p, t, t' =>
    match t.dropWhile isWhite, t'.dropWhile isWhite with
    | [], [] => true
    | c :: u, d :: u' =>
      c = d && gapB k p (t.takeWhile isWhite) (t'.takeWhile isWhite) c && respB n (nextCtx k p (t.takeWhile isWhite) c) c u u' &&
        (!isQuoteC c || match matchQuoted c u, matchQuoted c u' with
          | none, none => true
          | some (a, r), some (b, r') => a == b && respB n .free c r r'
          | _, _ => false)
    | _, _ => false

theorem takeWhile_white (t : Str) : (t.takeWhile isWhite).all isWhite = true := by
  simp [List.all_takeWhile]

theorem respB_sound {c0 : Option Nat} : ∀ (n : Nat) (k : Ctx) (p : Char) (t t' : Str), respB n k p t t' = true →
    Respaced (fun _ => c0) (fun _ => c0) k p t t'
  | 0, _, _, _, _, h => by simp [respB] at h
  | n + 1, k, p, t, t', h => by
    have e1 := (List.takeWhile_append_dropWhile (p := isWhite) (l := t)).symm
    have e2 := (List.takeWhile_append_dropWhile (p := isWhite) (l := t')).symm
    have w1 := takeWhile_white t
    have w2 := takeWhile_white t'
    have hd : ∀ (l : Str) c u, l.dropWhile isWhite = c :: u → isWhite c = false := by
      intro l c u hl
      have := List.head?_dropWhile_not isWhite l
      rw [hl] at this
      simpa using this
    unfold respB at h
    cases h1 : t.dropWhile isWhite with
    | nil =>
      cases h2 : t'.dropWhile isWhite with
      | nil =>
        rw [e1, e2, h1, h2, List.append_nil, List.append_nil]
        exact .tail _ _ _ _ w1 w2
      | cons d u' => rw [h1, h2] at h; cases h
    | cons c u =>
      cases h2 : t'.dropWhile isWhite with
      | nil => rw [h1, h2] at h; cases h
      | cons d u' =>
        rw [h1, h2] at h
        simp only [Bool.and_eq_true, decide_eq_true_eq] at h
        obtain ⟨⟨⟨rfl, hg⟩, hr⟩, hq⟩ := h
        rw [e1, e2, h1, h2]
        have hg : Gap k p (t.takeWhile isWhite) (t'.takeWhile isWhite) c := by
          simp only [gapB, Bool.or_eq_true, Bool.and_eq_true, beq_iff_eq, Bool.not_eq_true', List.isEmpty_eq_false_iff] at hg
          exact hg
        refine .put w1 w2 (hd _ _ _ h1) hg rfl ?_ (respB_sound n _ _ _ _ hr)
        intro hqc
        rw [hqc] at hq
        simp only [Bool.not_true, Bool.false_or] at hq
        split at hq
        · rename_i q1 q2; exact .inl ⟨q1, q2⟩
        · rename_i a r b r' q1 q2
          simp only [Bool.and_eq_true, beq_iff_eq] at hq
          obtain ⟨rfl, hq⟩ := hq
          exact .inr ⟨_, _, _, q1, q2, respB_sound n _ _ _ _ hq⟩
        · cases hq

/-- Texts with other blanks, tabs and line breaks; the declarations of `f` and of `x` are not recognised in either of them. -/
theorem C59_example_texts :
    Respaced (fun _ => none) (fun _ => none) .free ' '
      c%"struct s{char*p;int b:3;};int a[]={1,(2)+x,1e-3};char t[]=\"a  b\";int f(int,...);float x=1.5f ; typedef unsigned int u;"
      c%"struct  s {\n  char * p ;\n  int b : 3 ;\n} ;\nint a [ ] = { 1 , ( 2 ) + x , 1e-3 } ;\nchar t [ ] = \"a  b\" ; int f ( int , ... ) ;\n\
        float x = 1.5f;typedef\tunsigned\nint\nu ;\n" ∧
    namesOf c%"struct s{char*p;int b:3;};int a[]={1,(2)+x,1e-3};char t[]=\"a  b\";int f(int,...);float x=1.5f ; typedef unsigned int u;" =
      namesOf c%"struct  s {\n  char * p ;\n  int b : 3 ;\n} ;\nint a [ ] = { 1 , ( 2 ) + x , 1e-3 } ;\nchar t [ ] = \"a  b\" ; int f ( int , ... ) ;\n\
        float x = 1.5f;typedef\tunsigned\nint\nu ;\n" ∧
    namesOf c%"struct s{char*p;int b:3;};int a[]={1,(2)+x,1e-3};char t[]=\"a  b\";int f(int,...);float x=1.5f ; typedef unsigned int u;" =
      [[c%"struct s", c%"u"], [], [c%"a", c%"t"], [c%"s"], []] := by
  have h := respB_sound (c0 := none) 1000 .free ' '
      c%"struct s{char*p;int b:3;};int a[]={1,(2)+x,1e-3};char t[]=\"a  b\";int f(int,...);float x=1.5f ; typedef unsigned int u;"
      c%"struct  s {\n  char * p ;\n  int b : 3 ;\n} ;\nint a [ ] = { 1 , ( 2 ) + x , 1e-3 } ;\nchar t [ ] = \"a  b\" ; int f ( int , ... ) ;\n\
        float x = 1.5f;typedef\tunsigned\nint\nu ;\n" (by decide +kernel)
  refine ⟨h, ?_, by decide +kernel⟩
  unfold namesOf
  rw [C59_blanks_partial (g := exGram) (by decide) (c := none) rfl Store.empty (fun _ _ _ => rfl) h]

/-- C59 does not extend to the white space behind a sign that follows a parenthesis: it is part of the text that is evaluated, and Python does not
evaluate a number on a line of its own. -/
theorem C59_counterexample_sign :
    (parseDefs { exGram with ev := fun _ e => if e = c%"- 3" then .int (-3) else .none } Store.empty c%"int x = (A) - 3;").1.defs .variables =
      [(c%"x", .var (.int (-3)) ⟨c%"int", [], [some []]⟩)] ∧
    (parseDefs { exGram with ev := fun _ e => if e = c%"- 3" then .int (-3) else .none } Store.empty c%"int x = (A) -\n3;").1.defs .variables =
      [(c%"x", .var .none ⟨c%"int", [], [some []]⟩)] := ⟨by rfl, by rfl⟩

end Pyclib
