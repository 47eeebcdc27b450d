import Verif.Proof.GrammarFuelDecl
import Verif.Props.Decl
import Verif.Spec.Words
/-
C58-C61: the declarations of a header are found in its text, in any layout, and each declared name is
recorded with its C type.
-/
set_option linter.unusedSimpArgs false
namespace Pyclib
open Spec

/-- C58: the words the syntax of Spec/Grammar.lean is made of are those of C (Spec/Words.lean): storage classes,
qualifiers, simple types; and no name is one of them, a word of a struct, union or enum, or a calling convention. -/
theorem C58_words : (∀ w, w ∈ storageWords ↔ w ∈ cStorage) ∧ (∀ w, w ∈ qualWords ↔ w ∈ cQuals) ∧
    (∀ cfg w, w ∈ fundWords cfg ↔ CSimple cfg w) ∧
    (∀ cfg w, w ∈ fundNames cfg ↔ CSimple cfg w) ∧ (∀ u, compWord u = if u then c%"union" else c%"struct") ∧
    ∀ cfg w, w ∈ keywords cfg ↔ CSimple cfg w ∨ w ∈ cQuals ∨
      w ∈ [c%"struct", c%"union", c%"enum", c%"__stdcall", c%"__cdecl"] := by
  have hf : ∀ cfg w, w ∈ fundWords cfg ↔ CSimple cfg w := by
    intro cfg w
    simp only [fundWords, baseTypes, numTypes, nonnumTypes, c99IntTypes, signModifiers, sizeModifiers, CSimple, List.mem_append,
      List.mem_cons, List.not_mem_nil, or_false]
    cases cfg.py312 <;> cases cfg.win32 <;> simp <;> grind
  refine ⟨fun w => ?_, fun w => ?_, hf, fun cfg w => ?_, fun u => rfl, fun cfg w => ?_⟩
  · simp only [storageWords, cStorage, List.mem_cons, List.not_mem_nil, or_false]; grind
  · simp only [qualWords, cQuals]
  · rw [← hf]; simp only [fundNames, fundWords, baseTypes, List.mem_append]; grind
  · rw [← hf]
    simp only [keywords, fundWords, qualWords, cQuals, List.mem_append, List.mem_cons, List.not_mem_nil, or_false]
    grind

/-! ### Concrete headers -/

/-- A text given by tokens, each with the white space in front of it. -/
def textOf (tail : Str) : List (Str × Str) → Str
  | [] => tail
  | (ws, w) :: l => ws ++ w ++ textOf tail l

/-- The tokens of such a text. -/
def tksOf (doc : Doc) : List (Str × Str) → List Tk
  | [] => []
  | (_, w) :: l => ⟨w, doc.pack (w ++ textOf doc.tail l).length⟩ :: tksOf doc l

/-- White space is white, tokens do not begin with white space, and neighbours do not run together. -/
def layOk : Char → List (Str × Str) → Bool
  | _, [] => true
  | p, (ws, w) :: l =>
    ws.all isWhite && w.head?.any (fun c => !isWhite c && (!ws.isEmpty || apart p c)) && layOk (w.getLastD ' ') l

theorem lay_textOf (doc : Doc) : ∀ (l : List (Str × Str)) (p : Char), layOk p l = true →
    Lay doc p (textOf doc.tail l) (tksOf doc l)
  | [], p, _ => .nil p
  | (ws, []) :: l, p, h => by simp [layOk] at h
  | (ws, c :: w) :: l, p, h => by
    simp only [layOk, Bool.and_eq_true, List.head?_cons, Option.any_some, Bool.or_eq_true, Bool.not_eq_true',
      List.isEmpty_eq_false_iff] at h
    exact .cons p ws c w _ _ _ h.1.1 h.1.2.1 h.1.2.2 (fun _ _ => rfl) (lay_textOf doc l _ h.2)

/-- No extra types or modifiers, no packing. -/
def exGram : Gram := ⟨⟨false, false, []⟩, [], exEvalExpr, fun _ => none, fun _ => []⟩

/-- Tokens of the examples. -/
def tkw (w : Str) : Tk := ⟨w, none⟩

/-- Tokens of a header in one layout: with blanks in front of words only. -/
def exHeader : List (Str × Str) :=
  [([], c%"typedef"), ([' '], c%"unsigned"), ([' '], c%"int"), ([' '], c%"u32"), ([], c%";"),
   (['\n'], c%"struct"), ([' '], c%"pt"), ([], c%"{"), ([], c%"u32"), ([' '], c%"x"), ([], c%","), ([], c%"*"),
   ([], c%"y"), ([], c%"["), ([], c%"2"), ([], c%"]"), ([], c%";"), ([], c%"}"), ([], c%";"),
   (['\n', '\n', '\t'], c%"int"), ([' '], c%"f"), ([], c%"("), ([], c%"struct"), ([' '], c%"pt"), ([], c%"*"),
   ([], c%","), ([], c%"int"), ([' '], c%"n"), ([], c%")"), ([], c%";")]

/-- The text of the example. -/
example : textOf ['\n'] exHeader =
    c%"typedef unsigned int u32;\nstruct pt{u32 x,*y[2];};\n\n\tint f(struct pt*,int n);\n" := by rfl

/-- The names recorded from a text: types, functions, variables, structs, enums. -/
def namesOf (text : Str) : List (List Str) :=
  let s := (parseDefs exGram Store.empty text).1
  [s.defs .types, s.defs .functions, s.defs .variables, s.defs .structs, s.defs .enums].map (fun d => d.map (·.1))

/-! ### C58 -/

/-- C58: whatever the layout of its text, a header that consists of declarations in C syntax is processed
declaration by declaration, exactly as C reads it: the definition tables afterwards are those the syntax
prescribes, and nothing is raised. -/
theorem C58_declarations_partial {g : Gram} (hg : gramOk g = true) {tail text : Str} {s s' : St} {ts : List Tk}
    (hh : CHeader g s ts s') (hl : Lay ⟨tail, g.pack⟩ ' ' text ts) (ht : tail.all isWhite = true) :
    parseDefs g s text = (s', none) := parseDefs_read hg hh hl ht

/-- C58: the tables that the syntax prescribes are unique: a text cannot be read as C in two ways that
record different definitions. -/
theorem C58_unique {g : Gram} (hg : gramOk g = true) {tail text : Str} {s s1 s2 : St} {ts ts' : List Tk}
    (h1 : CHeader g s ts s1) (h2 : CHeader g s ts' s2) (hl : Lay ⟨tail, g.pack⟩ ' ' text ts)
    (hl' : Lay ⟨tail, g.pack⟩ ' ' text ts') (ht : tail.all isWhite = true) : s1 = s2 := by
  have e1 := parseDefs_read hg h1 hl ht
  have e2 := parseDefs_read hg h2 hl' ht
  rw [e1] at e2
  exact (Prod.mk.inj e2).1

theorem noMod_nil {g : Gram} : NoMod g [] := fun _ h => by cases h

/-- A token list that does not end with an extra modifier or an attribute may be followed by anything. -/
theorem joins_last {g : Gram} {t d : List Tk} (h : t.getLast?.all (fun a => decide (a.w ∉ g.mods) && !attrOk g a.w) = true) : Joins g t d := by
  intro a b h1 h2
  rw [h1] at h
  simp only [Option.all_some, Bool.and_eq_true, decide_eq_true_eq, Bool.not_eq_true'] at h
  rcases h2 with h2 | h2
  · exact absurd h2 h.1
  · rw [h2] at h; cases h.2

theorem declr_simple {g : Gram} {s : St} {n : Str} {p a : List Tk} {ps : List (List Str)} {es : List Str}
    (hp : Ptrs g p ps) (hn : identOk g n = true) (ha : Arrays g a es) :
    CDeclr g s ([] ++ ([] ++ (p ++ (([] ++ [tkw n]) ++ ([] ++ a))))) s
      (.mk [] none ps false (.name n) false .nil es) :=
  .mk s s s [] [] p ([] ++ [tkw n]) [] a [] none ps false (.name n) false .nil es .nil noMod_nil .none hp
    (joins_hd (word_hd_ne (t := tkw n) (identOk_spec (t := tkw n) hn).word (by decide)))
    (.name s [] false (tkw n) .no hn) (.none s) ha

theorem declr_fn {g : Gram} {s s' : St} {n : Str} {ps : List Tk} {as : ArgList}
    (hn : identOk g n = true) (hp : CParams g s ps s' as) :
    CDeclr g s ([] ++ ([] ++ ([] ++ (([] ++ [tkw n]) ++ ((tkw c%"(" :: (ps ++ [tkw c%")"])) ++ []))))) s'
      (.mk [] none [] false (.name n) true as []) :=
  .mk s s s' [] [] [] ([] ++ [tkw n]) (tkw c%"(" :: (ps ++ [tkw c%")"])) [] [] none [] false (.name n) true as []
    .nil noMod_nil .none .nil (by intro a b h; cases h) (.name s [] false (tkw n) .no hn) (.list s s' _ _ ps as rfl rfl hp) .nil

theorem spec_plain {g : Gram} {s s' : St} {ts : List Tk} {n : Str} (h : CName g s ts s' n) :
    CSpec g s ts s' ([], n) := by simpa using CSpec.mk s s' [] ts [] [] n .nil h .nil

/-- The three declarations of the example. -/
theorem ex_typedef : CTop exGram Store.empty
    ([c%"typedef", c%"unsigned", c%"int", c%"u32", c%";"].map tkw)
    (addDef Store.empty .types c%"u32" (.type ⟨c%"unsigned int", [], [some []]⟩)) :=
  .typedef _ _ _ _ (tkw c%"typedef") (tkw c%";") [tkw c%"unsigned", tkw c%"int"] [tkw c%"u32"] [] c%"unsigned int"
    [dName c%"u32"] rfl (spec_plain (.fund _ (tkw c%"unsigned") [tkw c%"int"] (by decide)))
    (.one _ _ _ _ (declr_simple .nil (by decide) .nil)) rfl rfl (joins_last (by decide))

theorem ex_struct (s : St) (s' : St)
    (h : procStruct exEvalExpr s false (some c%"pt")
      [⟨[], c%"u32", [dName c%"x", .mk [] none [[]] false (.name c%"y") false .nil [c%"2"]], none, none⟩] none =
      (s', some c%"struct pt")) :
    CTop exGram s
    ([c%"struct", c%"pt", c%"{", c%"u32", c%"x", c%",", c%"*", c%"y", c%"[", c%"2", c%"]", c%";", c%"}", c%";"].map
      tkw) s' :=
  .type _ _ [] ([c%"struct", c%"pt", c%"{", c%"u32", c%"x", c%",", c%"*", c%"y", c%"[", c%"2", c%"]", c%";",
      c%"}"].map tkw) (tkw c%";") [] c%"struct pt" .no
    (spec_plain (.compDef s s s' false (tkw c%"struct") (tkw c%"{") (tkw c%"}") [tkw c%"pt"]
      ([c%"u32", c%"x", c%",", c%"*", c%"y", c%"[", c%"2", c%"]", c%";"].map tkw) (some c%"pt") _ _ rfl
      (.some _ (by decide)) rfl rfl
      (.one _ _ _ _ (.var _ _ _ [tkw c%"u32"] ([c%"x", c%",", c%"*", c%"y", c%"[", c%"2", c%"]"].map tkw)
        (tkw c%";") [] c%"u32" _ (spec_plain (.ident _ (tkw c%"u32") (by decide)))
        (.more _ _ _ [tkw c%"x"] _ (tkw c%",") _ _ (declr_simple .nil (by decide) .nil) rfl
          (.one _ _ _ _ (declr_simple (.cons (tkw c%"*") [] [] [] [] rfl .nil .nil) (by decide)
            (.len (tkw c%"[") (tkw c%"]") [tkw c%"2"] [] c%"2" [] rfl rfl
              ⟨[c%"2"], .atom _ _ (atom_num ⟨[], rfl, rfl, .inl ⟨by decide, by decide⟩⟩), rfl⟩ .nil)))) rfl (joins_last (by decide))))
      h)) rfl

theorem ex_proto (s : St) (hs : dhas (s.defs .structs) c%"pt" = true) : CTop exGram s
    ([c%"int", c%"f", c%"(", c%"struct", c%"pt", c%"*", c%",", c%"int", c%"n", c%")", c%";"].map tkw)
    (procVariable exEvalExpr s [] c%"int"
      [.mk [] none [] false (.name c%"f") true (.cons [] c%"struct pt" (.mk [] none [[]] false .abs false .nil [])
        none (.cons [] c%"int" (dName c%"n") none .nil)) []] .none) :=
  .var _ _ _ [] [tkw c%"int"] ([c%"f", c%"(", c%"struct", c%"pt", c%"*", c%",", c%"int", c%"n", c%")"].map tkw) []
    (tkw c%";") [] c%"int" _ .none .no (spec_plain (.fund _ (tkw c%"int") [] (by decide)))
    (.one _ _ _ _ (declr_fn (by decide)
      (.more _ _ _ [tkw c%"struct", tkw c%"pt", tkw c%"*"] [tkw c%"int", tkw c%"n"] (tkw c%",") [] c%"struct pt" _ none _
        (.abs _ _ [tkw c%"struct", tkw c%"pt"] [tkw c%"*"] [] [] c%"struct pt" _ none
          (spec_plain (.comp _ _ false (tkw c%"struct") (tkw c%"pt") c%"struct pt" rfl (by decide)
            (by simp [procStruct, compKind, compWord, hs, tkw])))
          (.mk [] [tkw c%"*"] [] [] [] [[]] false [] .nil noMod_nil (.cons (tkw c%"*") [] [] [] [] rfl .nil .nil) .no .nil)
          .none) rfl
        (.one _ _ _ [] c%"int" _ none (.named _ _ _ [tkw c%"int"] [tkw c%"n"] [] [] c%"int" _ none
          (spec_plain (.fund _ (tkw c%"int") [] (by decide))) (declr_simple .nil (by decide) .nil) .none (joins_last (by decide)))))))
    .none rfl (joins_last (by decide))

/-- The example is a header in C syntax, for which the hypotheses of C58 hold; what is recorded. -/
theorem C58_example : ∃ s', CHeader exGram Store.empty (tksOf ⟨['\n'], exGram.pack⟩ exHeader) s' ∧
    gramOk exGram = true ∧ Lay ⟨['\n'], exGram.pack⟩ ' ' (textOf ['\n'] exHeader) (tksOf ⟨['\n'], exGram.pack⟩ exHeader) ∧
    (s'.defs .types).map (·.1) = [c%"u32", c%"struct pt"] ∧
    s'.defs .structs = [(c%"pt", .compound
      [⟨some c%"x", ⟨c%"u32", [], [some []]⟩, .none, none⟩,
       ⟨some c%"y", ⟨c%"u32", [.sym c%"*", .arr [some 2]], [some [], some [], some []]⟩, .none, none⟩] none)] ∧
    (s'.defs .functions).map (·.1) = [c%"f"] := by
  refine ⟨_, .cons _ _ _ _ _ ex_typedef (.cons _ _ _ _ _ (ex_struct _ _ rfl) (.cons _ _ _ _ [] (ex_proto _ rfl)
    (.nil _))), by decide, lay_textOf _ _ _ (by decide), rfl, rfl, rfl⟩

/-- A parser with extra modifiers. -/
def modGram : Gram := { exGram with mods := [c%"API", c%"ALIGN"] }

/-- `int API ALIGN(16) f(int);` -/
def modToks : List Str :=
  [c%"int", c%"API", c%"ALIGN", c%"(", c%"16", c%")", c%"f", c%"(", c%"int", c%")", c%";"]

theorem ex_mods : CTop modGram Store.empty (modToks.map tkw)
    (procVariable modGram.ev Store.empty [] c%"int"
      [.mk [] none [] false (.name c%"f") true (.cons [] c%"int" (.mk [] none [] false .abs false .nil []) none .nil) []]
      .none) :=
  .var _ _ _ [] ([c%"int", c%"API", c%"ALIGN", c%"(", c%"16", c%")"].map tkw) ([c%"f", c%"(", c%"int", c%")"].map tkw) []
    (tkw c%";") [] c%"int" _ .none .no
    (.mk _ _ [] [tkw c%"int"] ([c%"API", c%"ALIGN", c%"(", c%"16", c%")"].map tkw) [] c%"int" .nil
      (.fund _ (tkw c%"int") [] (by decide))
      (.word (tkw c%"API") _ (by decide) (.call (tkw c%"ALIGN") (tkw c%"(") (tkw c%")") [tkw c%"16"] [] (by decide) rfl rfl
        (.tok (tkw c%"16") [] (by decide) .nil) .nil)))
    (.one _ _ _ _ (declr_fn (by decide)
      (.one _ _ _ [] c%"int" _ none (.abs _ _ [tkw c%"int"] [] [] [] c%"int" _ none
          (spec_plain (.fund _ (tkw c%"int") [] (by decide)))
          (abs_nil _) .none))))
    .none rfl (by intro a b _ _ h; cases h; decide)

/-- C58 with extra modifiers: `int API ALIGN(16) f(int);` declares the function `f`. -/
theorem C58_example_modifiers : CHeader modGram Store.empty (modToks.map tkw) (procVariable modGram.ev Store.empty [] c%"int"
      [.mk [] none [] false (.name c%"f") true (.cons [] c%"int" (.mk [] none [] false .abs false .nil []) none .nil) []]
      .none) ∧ gramOk modGram = true ∧
    (parseDefs modGram Store.empty c%"int API ALIGN(16) f(int);").1.defs .functions =
      [(c%"f", .func (.func ⟨c%"int", [], [some []]⟩ [(none, ⟨c%"int", [], [some []]⟩, none)] [some [], some []]))] :=
  ⟨.cons _ _ _ _ [] ex_mods (.nil _), by decide, rfl⟩

/-- C58 with a linkage specification: in `extern "C" { int API ALIGN(16) f(int); };` the same function is declared. -/
theorem C58_example_linkage : CHeader modGram Store.empty
      (([c%"extern", c%"\"C\"", c%"{"] ++ modToks ++ [c%"}", c%";"]).map tkw) (procVariable modGram.ev Store.empty [] c%"int"
      [.mk [] none [] false (.name c%"f") true (.cons [] c%"int" (.mk [] none [] false .abs false .nil []) none .nil) []]
      .none) ∧
    parseDefs modGram Store.empty c%"extern \"C\" {\nint API ALIGN(16) f(int);\n};" =
      parseDefs modGram Store.empty c%"int API ALIGN(16) f(int);" :=
  ⟨.linkage _ _ (tkw c%"extern") (tkw c%"\"C\"") _ rfl rfl (by decide) (.stray _ _ (tkw c%"{") _ (by decide)
    (.cons _ _ _ _ _ ex_mods (.stray _ _ (tkw c%"}") _ (by decide) (.stray _ _ (tkw c%";") _ (by decide) (.nil _))))), rfl⟩

/-- `__attribute__((section("a)b"))) char * __restrict name = "say;";` -/
def attrToks : List Str :=
  [c%"__attribute__", c%"(", c%"(", c%"section", c%"(", c%"\"a)b\"", c%")", c%")", c%")", c%"char", c%"*", c%"__restrict",
   c%"name", c%"=", c%"\"say;\"", c%";"]

/-- `double scale = -2.5e-1;` -/
def floatToks : List Str := [c%"double", c%"scale", c%"=", c%"-", c%"2.5e-1", c%";"]

/-- `int n = (u32) 8 + 'a';` -/
def castToks : List Str := [c%"int", c%"n", c%"=", c%"(", c%"u32", c%")", c%"8", c%"+", c%"'a'", c%";"]

theorem ex_attr (s : St) : CTop exGram s (attrToks.map tkw)
    (procVariable exGram.ev s [c%"__", c%"(...)"] c%"char" [.mk [] none [[c%"__"]] false (.name c%"name") false .nil []]
      (.value c%"\"say;\"")) :=
  .var _ _ _ [] ((attrToks.take 10).map tkw) (([c%"*", c%"__restrict", c%"name"]).map tkw)
    [tkw c%"=", tkw c%"\"say;\""] (tkw c%";") _ _ _ _ .no
    (CSpec.mk (g := exGram) _ _ ((attrToks.take 9).map tkw) [tkw c%"char"] [] [c%"__", c%"(...)"] c%"char"
      (.call (tkw c%"__attribute__") (tkw c%"(") (tkw c%")") (([c%"(", c%"section", c%"(", c%"\"a)b\"", c%")", c%")"]).map tkw)
        [] [] (by decide) rfl rfl
        (.block (tkw c%"(") (tkw c%")") (([c%"section", c%"(", c%"\"a)b\"", c%")"]).map tkw) [] rfl rfl
          (.tok (tkw c%"section") _ (by decide)
            (.block (tkw c%"(") (tkw c%")") [tkw c%"\"a)b\""] [] rfl rfl
              (.str _ [] ⟨'"', [.chr 'a', .chr ')', .chr 'b'], .inl rfl, by simp [Item.Ok], rfl⟩ .nil) .nil)) .nil) .nil)
      (.fund _ (tkw c%"char") [] (by decide)) .nil)
    (.one _ _ _ _ (declr_simple (.cons (tkw c%"*") [tkw c%"__restrict"] [] [c%"__"] [] rfl
      (.attr (tkw c%"__restrict") [] [] (by decide) .nil) .nil) (by decide) .nil))
    (.value (tkw c%"=") [tkw c%"\"say;\""] _ rfl
      ⟨[c%"\"say;\""], .atom _ _ (.base _ _ (.str _ ⟨'"', [.chr 's', .chr 'a', .chr 'y', .chr ';'], .inl rfl, by simp [Item.Ok], rfl⟩)
        (by intro n h; cases h)), rfl⟩)
    rfl (joins_last (by decide))

theorem ex_float (s : St) : CTop exGram s (floatToks.map tkw)
    (procVariable exGram.ev s [] c%"double" [.mk [] none [] false (.name c%"scale") false .nil []]
      (.value c%"- 2.5e-1")) :=
  .var _ _ _ [] [tkw c%"double"] [tkw c%"scale"] (([c%"=", c%"-", c%"2.5e-1"]).map tkw) (tkw c%";") _ _ _ _ .no
    (spec_plain (.fund _ (tkw c%"double") [] (by decide)))
    (.one _ _ _ _ (declr_simple .nil (by decide) .nil))
    (.value (tkw c%"=") [tkw c%"-", tkw c%"2.5e-1"] _ rfl
      ⟨[c%"-", c%"2.5e-1"], .atom _ _ (.sign _ _ _ (by decide) (.base _ _ (.float _
        ⟨c%"2.5", c%"e-1", rfl, .inl ⟨'2', ['5'], rfl, by decide, by decide⟩,
          .inr ⟨'e', ['-'], ['1'], rfl, .inl rfl, .inr (.inr rfl), by decide, by decide⟩⟩)
        (by intro n h; cases h))), rfl⟩)
    rfl (joins_last (by decide))

theorem ex_cast (s : St) : CTop exGram s (castToks.map tkw)
    (procVariable exGram.ev s [] c%"int" [.mk [] none [] false (.name c%"n") false .nil []]
      (.value c%"8 + 'a'")) :=
  .var _ _ _ [] [tkw c%"int"] [tkw c%"n"] ((castToks.drop 2).dropLast.map tkw) (tkw c%";") _ _ _ _ .no
    (spec_plain (.fund _ (tkw c%"int") [] (by decide)))
    (.one _ _ _ _ (declr_simple .nil (by decide) .nil))
    (.value (tkw c%"=") (((castToks.drop 3).dropLast).map tkw) _ rfl
      ⟨[c%"8", c%"+", c%"'a'"], .bin [c%"(", c%"u32", c%")", c%"8"] [c%"8"] c%"+" [c%"'a'"] [c%"'a'"]
        (.cast c%"u32" _ _ (by decide) (.num _ _ ⟨[], rfl, rfl, .inl ⟨by decide, by decide⟩⟩)) (by decide)
        (.atom _ _ (.base _ _ (.str _ ⟨'\'', [.chr 'a'], .inr rfl, by simp [Item.Ok], rfl⟩) (by intro n h; cases h))), rfl⟩)
    rfl (joins_last (by decide))

/-- C58 with attributes, string and character literals, floating constants and casts; what is recorded. -/
theorem C58_example_literals : ∃ s', CHeader exGram Store.empty
      (attrToks.map tkw ++ (floatToks.map tkw ++ (castToks.map tkw ++ []))) s' ∧
    (s'.defs .variables).map (fun e => (e.1, match e.2 with | .var _ ty => some ty | _ => none)) =
      [(c%"name", some ⟨c%"char", [.sym c%"*"], [some [c%"__", c%"(...)"], some [c%"__"]]⟩),
       (c%"scale", some ⟨c%"double", [], [some []]⟩), (c%"n", some ⟨c%"int", [], [some []]⟩)] ∧
    (parseDefs exGram Store.empty c%"__attribute__((section(\"a)b\"))) char *__restrict name = \"say;\"; \
       double scale = -2.5e-1; int n = (u32) 8 + 'a';").1.defs .variables = s'.defs .variables :=
  ⟨_, .cons _ _ _ _ _ (ex_attr _) (.cons _ _ _ _ _ (ex_float _) (.cons _ _ _ _ [] (ex_cast _) (.nil _))),
    rfl, rfl⟩

/-! ### C59 -/

section Pack
variable {g : Gram} {p : Nat → Option Nat} {j : Str → Str}

/-- The same grammar with another function for the packing. -/
def Gram.withPack (g : Gram) (p : Nat → Option Nat) : Gram := { g with pack := p }

mutual
theorem base_pack : {ts out : List Str} → CBase g ts out → CBase (g.withPack p) ts out
  | _, _, .ident n h1 h2 h3 => .ident n h1 h2 h3
  | _, _, .num w v h => .num w v h
  | _, _, .float w h => .float w h
  | _, _, .str w h => .str w h
  | _, _, .paren ts out h1 => .paren ts out (expr_pack h1)
theorem atom_pack : {ts out : List Str} → CAtom g ts out → CAtom (g.withPack p) ts out
  | _, _, .base ts out h1 h2 => .base ts out (base_pack h1) h2
  | _, _, .cast n ts out h1 h2 => .cast n ts out h1 (base_pack h2)
  | _, _, .sign o ts out h1 h2 => .sign o ts out h1 (atom_pack h2)
theorem expr_pack : {ts out : List Str} → CExpr g ts out → CExpr (g.withPack p) ts out
  | _, _, .atom ts out h => .atom ts out (atom_pack h)
  | _, _, .bin ts out o ts' out' h1 h2 h3 => .bin ts out o ts' out' (atom_pack h1) h2 (expr_pack h3)
end

theorem exprTks_pack {ts : List Tk} {e : Str} (h : ExprTks g ts e) : ExprTks (g.withPack p) ts e :=
  let ⟨out, h1, h2⟩ := h; ⟨out, expr_pack h1, h2⟩

theorem arrays_pack {ts : List Tk} {es : List Str} (h : Arrays g ts es) : Arrays (g.withPack p) ts es := by
  induction h with
  | nil => exact .nil
  | empty l r ts es h1 h2 _ ih => exact .empty l r ts es h1 h2 ih
  | len l r e ts x es h1 h2 h3 _ ih => exact .len l r e ts x es h1 h2 (exprTks_pack h3) ih

theorem default_pack {ts : List Tk} {v : Option Str} (h : Default g ts v) : Default (g.withPack p) ts v := by
  cases h with
  | none => exact .none
  | some eq e x h1 h2 => exact .some eq e x h1 (exprTks_pack h2)

theorem quals_pack {ts : List Tk} {qs : List Str} (h : Quals g ts qs) : Quals (g.withPack p) ts qs := by
  induction h with
  | nil => exact .nil
  | word t ts qs h _ ih => exact .word t ts qs h ih
  | attr t ts qs h _ ih => exact .attr t ts qs h ih
  | call t l r b ts qs h h1 h2 h3 _ ih => exact .call t l r b ts qs h h1 h2 h3 ih

theorem ptrs_pack {ts : List Tk} {ps : List (List Str)} (h : Ptrs g ts ps) : Ptrs (g.withPack p) ts ps := by
  induction h with
  | nil => exact .nil
  | cons star q ts qs ps h h1 _ ih => exact .cons star q ts qs ps h (quals_pack h1) ih

theorem abs_pack {ts : List Tk} {d : Decl} (h : CAbs g ts d) : CAbs (g.withPack p) ts d := by
  cases h with
  | mk q p a r qs ps ref es h1 h2 h3 h4 h5 => exact .mk q p a r qs ps ref es (quals_pack h1) h2 (ptrs_pack h3) h4 (arrays_pack h5)

theorem exprs_pack {ts : List Tk} {xs : List Str} (h : Exprs g ts xs) : Exprs (g.withPack p) ts xs := by
  induction h with
  | one e x h => exact .one e x (exprTks_pack h)
  | more e x c ts xs h1 h2 _ ih => exact .more e x c ts xs (exprTks_pack h1) h2 ih

theorem init_pack {ts : List Tk} {i : Init} (h : CInit g ts i) : CInit (g.withPack p) ts i := by
  cases h with
  | none => exact .none
  | value eq e x h1 h2 => exact .value eq e x h1 (exprTks_pack h2)
  | values eq l r ts xs h1 h2 h3 h4 => exact .values eq l r ts xs h1 h2 h3 (exprs_pack h4)

theorem tag_pack {ts : List Tk} {n : Option Str} (h : Tag g ts n) : Tag (g.withPack p) ts n := by
  cases h with
  | none => exact .none
  | some t h => exact .some t h

theorem enums_pack {ts : List Tk} {ms : List (Str × Option Str)} (h : Enumerators g ts ms) :
    Enumerators (g.withPack p) ts ms := by
  have one : ∀ {ts m}, Enumerator g ts m → Enumerator (g.withPack p) ts m := by
    intro ts m h
    cases h with
    | mk n v val h1 h2 => exact .mk n v val h1 (default_pack h2)
  induction h with
  | one ts m h => exact .one ts m (one h)
  | more ts m c ts' ms h1 h2 _ ih => exact .more ts m c ts' ms (one h1) h2 ih

theorem mods_pack {ts : List Tk} (h : Mods g ts) : Mods (g.withPack p) ts := by
  induction h with
  | nil => exact .nil
  | word m ts h _ ih => exact .word m ts h ih
  | call m l r b ts h h1 h2 h3 _ ih => exact .call m l r b ts h h1 h2 h3 ih

mutual
theorem spec_pack : {s s' : St} → {ts : List Tk} → {q : List Str × Str} → CSpec g s ts s' q →
    CSpec (g.withPack p) s ts s' q
  | _, _, _, _, .mk s s' q ts m qs n h1 h2 h3 => .mk s s' q ts m qs n (quals_pack h1) (name_pack h2) (mods_pack h3)
theorem name_pack : {s s' : St} → {ts : List Tk} → {n : Str} → CName g s ts s' n → CName (g.withPack p) s ts s' n
  | _, _, _, _, .fund s t ts h => .fund s t ts h
  | _, _, _, _, .ident s t h => .ident s t h
  | _, _, _, _, .comp s s' u kw n r h1 h2 h3 => .comp s s' u kw n r h1 h2 h3
  | _, _, _, _, .compDef s s1 s2 u kw l rb nm body name ms r h1 h2 h3 h4 h5 h6 =>
    .compDef s s1 s2 u kw l rb nm body name ms r h1 (tag_pack h2) h3 h4 (members_pack h5) h6
  | _, _, _, _, .enum s s' kw n r h1 h2 h3 => .enum s s' kw n r h1 h2 h3
  | _, _, _, _, .enumDef s s' kw l rb nm body oc name ms r h1 h2 h3 h4 h5 h6 h7 =>
    .enumDef s s' kw l rb nm body oc name ms r h1 (tag_pack h2) h3 h4 (enums_pack h5) h6 h7
theorem members_pack : {s s' : St} → {ts : List Tk} → {ms : List MemberDecl} → CMembers g s ts s' ms →
    CMembers (g.withPack p) s ts s' ms
  | _, _, _, _, .one s s' ts m h => .one s s' ts m (member_pack h)
  | _, _, _, _, .more s s1 s2 ts ts' m ms h1 h2 => .more s s1 s2 ts ts' m ms (member_pack h1) (members_pack h2)
theorem member_pack : {s s' : St} → {ts : List Tk} → {m : MemberDecl} → CMemberDecl g s ts s' m →
    CMemberDecl (g.withPack p) s ts s' m
  | _, _, _, _, .var s s1 s2 t d semi tq tn ds h1 h2 h3 h4 =>
    .var s s1 s2 t d semi tq tn ds (spec_pack h1) (decls_pack h2) h3 h4
  | _, _, _, _, .anon s s1 t semi tq tn h1 h2 => .anon s s1 t semi tq tn (spec_pack h1) h2
  | _, _, _, _, .bit s t d col n semi tq tn ds v h1 h2 h3 h4 h5 h6 h7 =>
    .bit s t d col n semi tq tn ds v (spec_pack h1) (decls_pack h2) h3 h4 h5 h6 h7
  | _, _, _, _, .pad s t col n semi tq tn v h1 h2 h3 h4 h5 => .pad s t col n semi tq tn v (spec_pack h1) h2 h3 h4 h5
theorem decls_pack : {s s' : St} → {ts : List Tk} → {ds : List Decl} → CDecls g s ts s' ds →
    CDecls (g.withPack p) s ts s' ds
  | _, _, _, _, .one s s' ts d h => .one s s' ts d (declr_pack h)
  | _, _, _, _, .more s s1 s2 ts ts' c d ds h1 h2 h3 =>
    .more s s1 s2 ts ts' c d ds (declr_pack h1) h2 (decls_pack h3)
theorem declr_pack : {s s' : St} → {ts : List Tk} → {d : Decl} → CDeclr g s ts s' d →
    CDeclr (g.withPack p) s ts s' d
  | _, _, _, _, .mk s s1 s2 q c p co ar a qs conv ps ref core h as es h1 h2 h3 h4 h5 h6 h7 h8 =>
    .mk s s1 s2 q c p co ar a qs conv ps ref core h as es (quals_pack h1) h2 h3 (ptrs_pack h4) h5 (core_pack h6) (args_pack h7)
      (arrays_pack h8)
theorem core_pack : {s s' : St} → {ts : List Tk} → {ref : Bool} → {c : Core} → CCore g s ts s' ref c →
    CCore (g.withPack p) s ts s' ref c
  | _, _, _, _, _, .name s a ref n h1 h2 => .name s a ref n h1 h2
  | _, _, _, _, _, .center s s' l r ts d h1 h2 h3 => .center s s' l r ts d h1 h2 (declr_pack h3)
theorem args_pack : {s s' : St} → {ts : List Tk} → {h : Bool} → {as : ArgList} → CArgs g s ts s' h as →
    CArgs (g.withPack p) s ts s' h as
  | _, _, _, _, _, .none s => .none s
  | _, _, _, _, _, .empty s l r h1 h2 => .empty s l r h1 h2
  | _, _, _, _, _, .list s s' l r ps as h1 h2 h3 => .list s s' l r ps as h1 h2 (params_pack h3)
theorem params_pack : {s s' : St} → {ts : List Tk} → {as : ArgList} → CParams g s ts s' as →
    CParams (g.withPack p) s ts s' as
  | _, _, _, _, .one s s' ts tq tn d val h => .one s s' ts tq tn d val (param_pack h)
  | _, _, _, _, .more s s1 s2 ts ts' c tq tn d val as h1 h2 h3 =>
    .more s s1 s2 ts ts' c tq tn d val as (param_pack h1) h2 (params_pack h3)
theorem param_pack : {s s' : St} → {ts : List Tk} → {tq : List Str} → {tn : Str} → {d : Decl} → {val : Option Str} →
    CParam g s ts s' tq tn d val → CParam (g.withPack p) s ts s' tq tn d val
  | _, _, _, _, _, _, _, .named s s1 s2 t d v tq tn d' val h1 h2 h3 h4 =>
    .named s s1 s2 t d v tq tn d' val (spec_pack h1) (declr_pack h2) (default_pack h3) h4
  | _, _, _, _, _, _, _, .abs s s1 t d v tq tn d' val h1 h2 h3 =>
    .abs s s1 t d v tq tn d' val (spec_pack h1) (abs_pack h2) (default_pack h3)
end

theorem header_pack {s s' : St} {ts : List Tk} (h : CHeader g s ts s') : CHeader (g.withPack p) s ts s' := by
  induction h with
  | nil s => exact .nil s
  | stray s s' t ts h _ ih => exact .stray s s' t ts h ih
  | linkage s s' e l ts h1 h2 h3 _ ih => exact .linkage s s' e l ts h1 h2 h3 ih
  | cons s s1 s2 ts ts' h _ ih =>
    refine .cons s s1 s2 ts ts' ?_ ih
    cases h with
    | typedef s1 s2 _ kw semi t d tq tn ds h1 h2 h3 h4 h5 h6 =>
      exact .typedef _ s1 s2 _ kw semi t d tq tn ds h1 (spec_pack h2) (decls_pack h3) h4 h5 h6
    | var s1 s2 st t d i semi tq tn ds ini h1 h2 h3 h4 h5 h6 =>
      exact .var _ s1 s2 st t d i semi tq tn ds ini h1 (spec_pack h2) (decls_pack h3) (init_pack h4) h5 h6
    | type _ st t semi tq tn h1 h2 h3 => exact .type _ _ st t semi tq tn h1 (spec_pack h2) h3
    | func s1 s2 st t d b l r tq tn d' h1 h2 h3 h4 h5 h6 h7 h8 =>
      exact .func _ s1 s2 st t d b l r tq tn d' h1 (spec_pack h2) (declr_pack h3) h4 h5 h6 h7 h8

end Pack

/-- C59: two texts of a header with the same tokens, and the same packing in force at each of them, record
the same definitions, whatever the white space between the tokens (and wherever the lines begin and the
packing changes). -/
theorem C59_layout_partial {g : Gram} (hg : gramOk g = true) {s s' : St} {ts : List Tk} (hh : CHeader g s ts s')
    {tail text tail' text' : Str} {pack pack' : Nat → Option Nat}
    (hl : Lay ⟨tail, pack⟩ ' ' text ts) (hl' : Lay ⟨tail', pack'⟩ ' ' text' ts)
    (ht : tail.all isWhite = true) (ht' : tail'.all isWhite = true) :
    parseDefs (g.withPack pack) s text = parseDefs (g.withPack pack') s text' := by
  rw [parseDefs_read (g := g.withPack pack) hg (header_pack hh) hl ht,
    parseDefs_read (g := g.withPack pack') hg (header_pack hh) hl' ht']

theorem lay_const {c : Option Nat} : ∀ {ts : List Tk} {tail p text}, Lay ⟨tail, fun _ => c⟩ p text ts →
    ∀ t ∈ ts, ∀ u, t.w = compWord u → t.pk = c
  | _, _, _, _, .nil p => by simp
  | _, _, _, _, .cons p ws c w text ts pk _ _ _ hpk h => by
    intro t ht u hu
    rcases List.mem_cons.1 ht with rfl | ht
    · exact hpk u hu
    · exact lay_const h t ht u hu

/-- Where the packing is the same everywhere, tokens with the same words and that packing may be taken
instead. -/
theorem lay_relabel {c : Option Nat} : ∀ {ts' ts : List Tk} {tail p text}, Lay ⟨tail, fun _ => c⟩ p text ts' →
    ts.map Tk.w = ts'.map Tk.w → (∀ t ∈ ts, ∀ u, t.w = compWord u → t.pk = c) → Lay ⟨tail, fun _ => c⟩ p text ts
  | _, [], _, _, _, .nil p, _, _ => .nil p
  | _, t :: ts, _, _, _, .cons p ws d w text ts' pk h1 h2 h3 hpk h, he, hc => by
    obtain ⟨tw, tp⟩ := t
    simp only [List.map_cons, List.cons.injEq] at he
    obtain ⟨e1, e2⟩ := he
    cases e1
    exact .cons p ws d w text ts tp h1 h2 h3 (fun u hu => hc ⟨d :: w, tp⟩ (by simp) u hu)
      (lay_relabel h e2 (fun t ht => hc t (by simp [ht])))

/-- C59: without `#pragma pack` the words alone decide. -/
theorem C59_words_partial {g : Gram} (hg : gramOk g = true) {c : Option Nat} (hc : g.pack = fun _ => c)
    {s s' : St} {ts ts' : List Tk} (hh : CHeader g s ts s') {tail text tail' text' : Str}
    (hl : Lay ⟨tail, g.pack⟩ ' ' text ts) (hl' : Lay ⟨tail', g.pack⟩ ' ' text' ts')
    (hw : ts.map Tk.w = ts'.map Tk.w) (ht : tail.all isWhite = true) (ht' : tail'.all isWhite = true) :
    parseDefs g s text = parseDefs g s text' := by
  have hl2 : Lay ⟨tail', g.pack⟩ ' ' text' ts := by
    rw [hc] at hl hl' ⊢
    exact lay_relabel hl' hw (lay_const hl)
  rw [parseDefs_read hg hh hl ht, parseDefs_read hg hh hl2 ht']

/-- The example in another layout: every token on a line of its own. -/
example : ∃ s', CHeader exGram Store.empty (tksOf ⟨[], exGram.pack⟩ (exHeader.map (fun p => (['\n', ' '], p.2)))) s' ∧
    layOk ' ' (exHeader.map (fun p => (['\n', ' '], p.2))) = true ∧
    (exHeader.map (fun p => (['\n', ' '], p.2))).map (·.2) = exHeader.map (·.2) := by
  refine ⟨_, .cons _ _ _ _ _ ex_typedef (.cons _ _ _ _ _ (ex_struct _ _ rfl) (.cons _ _ _ _ [] (ex_proto _ rfl)
    (.nil _))), by decide, by decide⟩

/-! ### C60 -/

/-- C60: parsing comes to an end: whatever the text, neither the nesting of declarations nor the number of
rounds of the scan exceeds the length of the text, so that larger bounds give the same tables. -/
theorem C60_finishes {g : Gram} (hg : gramOk g = true) (s : St) (text : Str) (n k : Nat) (hn : text.length < n)
    (hk : text.length < k) : scan g n k s ⟨' ', text⟩ = parseDefs g s text :=
  scan_fuel (noEmpty_of_ok hg) n (text.length + 1) k (text.length + 1) s ⟨' ', text⟩ hn (Nat.lt_succ_self _) hk
    (Nat.lt_succ_self _)

/-- C60: the nesting of types, declarators and expressions is limited by the length of the text. -/
theorem C60_nesting {g : Gram} (hg : gramOk g = true) (s : St) (x : Pos) (n n' : Nat) (hn : x.rest.length < n)
    (hn' : x.rest.length < n') :
    (gram g n).type s x = (gram g n').type s x ∧ (gram g n).decl s x = (gram g n').decl s x ∧
      (gram g n).abs s x = (gram g n').abs s x ∧ exprN g.cfg n x = exprN g.cfg n' x := by
  have h := gram_fuel (noEmpty_of_ok hg) n n' (x.rest.length + 1) hn hn'
  exact ⟨h.type s x (Nat.lt_succ_self _), h.decl s x (Nat.lt_succ_self _), h.abs s x (Nat.lt_succ_self _),
    exprN_fuel g.cfg n n' x hn hn'⟩

/-- C60: the loops of the grammar make at most as many rounds as there are characters. -/
theorem C60_loops {g : Gram} (hg : gramOk g = true) (x : Pos) (n n' : Nat) (hn : x.rest.length < n)
    (hn' : x.rest.length < n') :
    qualLoop g.cfg n x = qualLoop g.cfg n' x ∧ fundLoop g.cfg n x = fundLoop g.cfg n' x ∧
    modLoop g.mods n x = modLoop g.mods n' x ∧ ptrLoop g.cfg n x = ptrLoop g.cfg n' x ∧
    arrayLoop g.cfg n x = arrayLoop g.cfg n' x ∧ skipQuoted n x = skipQuoted n' x ∧
    (∀ o c d, nestLoop o c n d x.rest = nestLoop o c n' d x.rest) ∧
    (∀ m, biLoop g.cfg (exprN g.cfg m) n x = biLoop g.cfg (exprN g.cfg m) n' x) ∧
    (∀ m, commaLoop (exprN g.cfg m) n x = commaLoop (exprN g.cfg m) n' x) ∧
    (∀ m s, commaLoopS (gram g m).decl n s x = commaLoopS (gram g m).decl n' s x) ∧
    (∀ m s, memberLoop g (gram g m) n s x = memberLoop g (gram g m) n' s x) := by
  have h := noEmpty_of_ok hg
  have hl := Nat.le_of_lt hn
  have hl' := Nat.le_of_lt hn'
  exact ⟨qualLoop_fuel n n' x hl hl', fundLoop_fuel h.fund n n' x hl hl', modLoop_fuel h.mods n n' x hl hl',
    ptrLoop_fuel n n' x hl hl', arrayLoop_fuel n n' x hl hl', skipQuoted_fuel n n' x hl hl',
    fun o c d => nestLoop_fuel n n' d x.rest hl hl',
    fun m => biLoop_fuel (exprN_len g.cfg m) n n' x hl hl' (fun _ _ => rfl),
    fun m => commaLoop_fuel (exprN_len g.cfg m) n n' x hl hl' (fun _ _ => rfl),
    fun m s => commaLoopS_fuel (gram_len h m).decl n n' s x hl hl' (fun _ _ _ => rfl),
    fun m s => memberLoop_fuel (gram_len h m) n n' s x hn hn'
      ⟨fun _ _ _ => rfl, fun _ _ _ => rfl, fun _ _ _ => rfl⟩⟩

/-- C60: every attempt that succeeds reads text, so that the scan cannot stand still. -/
theorem C60_progress {g : Gram} (hg : gramOk g = true) (n : Nat) {s s' : St} {x y : Pos}
    (h : topP g (gram g n) s x = (s', .next y)) : y.rest.length < x.rest.length :=
  topP_len (gram_len (noEmpty_of_ok hg) n) h

/-- C60 needs words: with an empty string among the modifiers the loop over modifiers stands still, so that
it makes as many rounds as it is given (in Python: it never ends). -/
theorem C60_counterexample_empty (p : Char) (hp : isWordC p = false) (s : Str) (hs : s.takeWhile isWordC = [])
    (hw : (Pos.skip ⟨p, s⟩) = ⟨p, s⟩) : kwl [[]] ⟨p, s⟩ = some ([], ⟨' ', s⟩) := by
  unfold kwl
  simp only [hw, hs, hp, Bool.false_eq_true, if_false, List.mem_singleton, if_true]
  have : s.dropWhile isWordC = s := by
    have := List.takeWhile_append_dropWhile (p := isWordC) (l := s)
    rw [hs] at this
    simpa using this
  rw [this]
  rfl

/-- C58 with C60: what follows a header, C or not, is processed with the tables of the header; it cannot
change how the header is read. -/
theorem C58_prefix_partial {g : Gram} (hg : gramOk g = true) {tail text : Str} {s s' : St} {ts : List Tk}
    (hh : CHeader g s ts s') (hl : Lay ⟨tail, g.pack⟩ ' ' text ts)
    (hk : (∀ u ∈ ts, u.w ≠ c%"\"C\"") ∨ ∀ c ∈ tail, c ≠ '"' ∧ c ≠ '\\') :
    ∃ p, parseDefs g s text = scan g (tail.length + 1) (tail.length + 1) s' ⟨p, tail⟩ := by
  have h : At ⟨tail, g.pack⟩ ⟨' ', text⟩ (ts ++ []) := by simpa [At] using hl
  have hlen := At.length h
  simp only [List.append_nil] at hlen
  obtain ⟨j', hj, e⟩ := scan_read hg rfl (text.length + 1) hh ⟨' ', text⟩ [] (text.length + 1) h (by
    omega) (by simp) (hk.imp id (fun hk => by
      rw [lay_rest (At.drop ts h), show tail = tail ++ [] by simp, quoteOk_append]
      · rfl
      · simpa using hk))
  have hr : (advs ⟨' ', text⟩ ts).rest = tail := lay_rest (At.drop ts h)
  have hle : tail.length ≤ text.length := by
    have := At.advs_length ts h
    rw [hr] at this
    have h2 : tail.length + ts.length ≤ text.length := this
    omega
  refine ⟨(advs ⟨' ', text⟩ ts).prev, ?_⟩
  unfold parseDefs
  rw [e, show (⟨(advs ⟨' ', text⟩ ts).prev, tail⟩ : Pos) = advs ⟨' ', text⟩ ts from by rw [← hr]]
  exact scan_fuel (noEmpty_of_ok hg) _ _ _ _ _ _ (by rw [hr]; omega) (by rw [hr]; omega) hj (by rw [hr]; omega)

/-- C58, C60 on a text that is not C after the first declaration. -/
example : namesOf c%"int f(int a); $%& ) } struct { int g(void);" = [[], [c%"f", c%"g"], [], [], []] := by rfl

/-! ### C61 -/

theorem header_append {g : Gram} {s s1 s2 : St} {ts ts' : List Tk} (h : CHeader g s ts s1) (h' : CHeader g s1 ts' s2)
    (hk : LinkOk ts ts') : CHeader g s (ts ++ ts') s2 := by
  induction h with
  | nil s => exact h'
  | stray s s1 t ts ht _ ih => exact .stray _ _ _ _ ht (ih h' (hk.imp (fun h u hu => h u (by simp [hu])) id))
  | linkage s s1 e l ts he hl ht _ ih =>
    have hk : ∀ u ∈ ts', linkTok u.w = true := hk.resolve_left (fun h => h l (by simp) hl)
    exact .linkage _ _ _ _ _ he hl (fun u hu => (List.mem_append.mp hu).elim (ht u) (hk u)) (ih h' (.inr hk))
  | cons s s1 _ ts us h _ ih =>
    rw [List.append_assoc]
    exact .cons _ _ _ _ _ h (ih h' (hk.imp (fun h u hu => h u (by simp [hu])) id))

/-- C61: the last declaration of a header, with any number of declarators: each of them records exactly one
entry, under `functions` with a type that denotes its C type if C says that it is a function, and otherwise
under `variables` and `values`; nothing else of what the rest of the header recorded changes. -/
theorem C61_declaration_partial {g : Gram} (hg : gramOk g = true) {tail text : Str} {s s0 s1 s2 : St}
    {pre st t d i : List Tk} {semi : Tk} {tq : List Str} {tn : Str} {ds : List Decl} {ini : Init}
    (hpre : CHeader g s pre s0) (hst : Storage st) (ht : CSpec g s0 t s1 (tq, tn)) (hd : CDecls g s1 d s2 ds)
    (hi : CInit g i ini) (hsemi : semi.w = c%";") (hj : Joins g t d)
    (hl : Lay ⟨tail, g.pack⟩ ' ' text (pre ++ (st ++ (t ++ (d ++ (i ++ [semi])))))) (hlk : LinkOk pre (st ++ (t ++ (d ++ (i ++ [semi])))))
    (hw : tail.all isWhite = true) (hok : ∀ d ∈ ds, d.Ok) :
    ∃ s', parseDefs g s text = (s', none) ∧ RecordsAll g.ev tq tn (initVal (evIn g.ev s2) ini) s2 ds s' := by
  refine ⟨_, parseDefs_read hg (header_append hpre (.cons _ _ _ _ [] (.var s0 s1 s2 st t d i semi tq tn ds ini
    hst ht hd hi hsemi hj) (.nil _)) (by simpa using hlk)) (by simpa using hl) hw, ?_⟩
  exact C36_variable_partial g.ev s2 tq tn ds ini hok

/-- What one declarator of a `typedef` records: its name under `types`. -/
def RecordsType (ev : EvalExpr) (tq : List Str) (tn : Str) (s : Store DefVal) (d : Decl) (s' : Store DefVal) : Prop :=
  ∃ t, procType (evIn ev s) tq tn d = .ok (d.name, t) ∧ t.spec = tn ∧ Denotes t (d.cty (fun x => (evIn ev s x).dim) (.base tn)) ∧
    QualsMatch t ∧ ∀ k n, dget (s'.defs k) n = if k = .types ∧ n = nameOr d.name then some (.type t) else dget (s.defs k) n

/-- The declarators of a `typedef` record one type each, one after the other. -/
def RecordsTypes (ev : EvalExpr) (tq : List Str) (tn : Str) : Store DefVal → List Decl → Store DefVal → Prop
  | s, [], s' => s' = s
  | s, d :: ds, s' => ∃ s1, RecordsType ev tq tn s d s1 ∧ RecordsTypes ev tq tn s1 ds s'

theorem typedefLoop_records (ev : EvalExpr) (tq : List Str) (tn : Str) : ∀ (ds : List Decl) (s : Store DefVal),
    (∀ d ∈ ds, d.ConvOk ∧ d.ArrOk) → ∃ s', typedefLoop ev tq tn s ds = (s', none) ∧ RecordsTypes ev tq tn s ds s'
  | [], s, _ => ⟨s, rfl, rfl⟩
  | d :: ds, s, h => by
    have hd := h d (by simp)
    obtain ⟨t, ht, hs, hden⟩ := C32_declarator_partial (evIn ev s) tq tn d hd.1 hd.2
    have hq := ((C03_declarator (evIn ev s) tq tn d).2 _ _ ht).1
    obtain ⟨s', h1, h2⟩ := typedefLoop_records ev tq tn ds (addDef s .types (nameOr d.name) (.type t))
      (fun e he => h e (by simp [he]))
    refine ⟨s', ?_, _, ⟨t, ht, hs, hden, hq, ?_⟩, h2⟩
    · simp only [typedefLoop, ht, h1]
    · intro k n
      rw [defs_addDef]
      by_cases hk : Kind.types = k
      · subst hk
        by_cases hn : n = nameOr d.name
        · subst hn; simp
        · simp [hn, dget_dset_ne, Ne.symm hn]
      · simp [hk, Ne.symm hk]

/-- C61: the last declaration of a header is a `typedef`: every name in it is recorded under `types` with a
type that denotes its C type, and nothing else changes. -/
theorem C61_typedef_partial {g : Gram} (hg : gramOk g = true) {tail text : Str} {s s0 s1 s2 : St}
    {pre t d : List Tk} {kw semi : Tk} {tq : List Str} {tn : Str} {ds : List Decl}
    (hpre : CHeader g s pre s0) (hkw : kw.w = c%"typedef") (ht : CSpec g s0 t s1 (tq, tn)) (hd : CDecls g s1 d s2 ds)
    (hsemi : semi.w = c%";") (hj : Joins g t d) (hl : Lay ⟨tail, g.pack⟩ ' ' text (pre ++ (kw :: (t ++ (d ++ [semi])))))
    (hlk : LinkOk pre (kw :: (t ++ (d ++ [semi]))))
    (hw : tail.all isWhite = true) (hok : ∀ d ∈ ds, d.ConvOk ∧ d.ArrOk) :
    ∃ s', parseDefs g s text = (s', none) ∧ RecordsTypes g.ev tq tn s2 ds s' := by
  obtain ⟨s', h1, h2⟩ := typedefLoop_records g.ev tq tn ds s2 hok
  exact ⟨s', parseDefs_read hg (header_append hpre (.cons _ _ _ _ [] (.typedef s0 s1 s2 s' kw semi t d tq tn ds
    hkw ht hd hsemi h1 hj) (.nil _)) (by simpa using hlk)) (by simpa using hl) hw, h2⟩

/-- C61: the last declaration of a header is a function definition: the function is recorded, and the body
is skipped. -/
theorem C61_function_partial {g : Gram} (hg : gramOk g = true) {tail text : Str} {s s0 s1 s2 : St}
    {pre st t d b : List Tk} {l r : Tk} {tq : List Str} {tn : Str} {d' : Decl}
    (hpre : CHeader g s pre s0) (hst : Storage st) (ht : CSpec g s0 t s1 (tq, tn)) (hd : CDeclr g s1 d s2 d')
    (hnb : ∀ u ∈ t ++ d, u.w ≠ c%"{") (hl1 : l.w = c%"{") (hr : r.w = c%"}") (hb : Body b) (hj : Joins g t d)
    (hl : Lay ⟨tail, g.pack⟩ ' ' text (pre ++ (st ++ (t ++ (d ++ (l :: (b ++ [r]))))))) (hlk : LinkOk pre (st ++ (t ++ (d ++ (l :: (b ++ [r]))))))
    (hw : tail.all isWhite = true) (hok : d'.Ok) (hf : declaresFn tn d' = true) :
    ∃ s' ty h, parseDefs g s text = (s', none) ∧ addHack ty = .ok h ∧
      Denotes ty (d'.cty (fun x => (evIn g.ev s2 x).dim) (.base tn)) ∧
      s' = addDef s2 .functions (nameOr d'.name) (.func h) := by
  obtain ⟨ty, ht1, hden, _⟩ := C36_isFn (evIn g.ev s2) tq tn d' hok
  obtain ⟨ty', h, h1, h2, h3⟩ := (C36_function_partial g.ev s2 tq tn d' hok).1 hf
  have e : ty' = ty := by rw [ht1] at h1; cases h1; rfl
  subst e
  exact ⟨_, ty', h, parseDefs_read hg (header_append hpre (.cons _ _ _ _ [] (.func s0 s1 s2 st t d b l r tq tn d'
    hst ht hd hnb hl1 hr hb hj) (.nil _)) (by simpa using hlk)) (by simpa using hl) hw, h2, hden, h3⟩

/-- The last declaration of the example meets the hypotheses of `C61_declaration_partial`. -/
example : Decl.Ok (.mk [] none [] false (.name c%"f") true
    (.cons [] c%"struct pt" (.mk [] none [[]] false .abs false .nil []) none (.cons [] c%"int" (dName c%"n") none .nil)) []) := by
  simp [Decl.Ok, dName, Decl.ConvOk, Core.ConvOk, ArgList.ConvOk, Decl.ArrOk, Core.ArrOk, ArgList.ArrOk,
    Decl.endsConv, Core.endsConv]

/-! ### Declarations that are not understood -/

/-- C58 does not extend to functions with a variable number of arguments: they are not recorded. -/
theorem C58_counterexample_variadic : namesOf c%"int f(int, ...); int g(int);" = [[], [c%"g"], [], [], []] := by rfl

/-- C58 does not extend to parameters that are function pointers without a name. -/
theorem C58_counterexample_fnparam :
    namesOf c%"int f(int (*)(int)); int g(int (*h)(int));" = [[], [c%"g"], [], [], []] := by rfl

/-- C58 does not extend to several initialised variables in one declaration. -/
theorem C58_counterexample_inits : namesOf c%"int a = 1, b = 2; int c;" = [[], [], [c%"c"], [], []] := by rfl

/-- C58 does not extend to several bit-fields in one member declaration: the struct is recorded without members, and what
the scan finds inside its braces is recorded as variables (as with `struct BITS` of /repo/tests/headers/ctypes_test.h,
`confCtypes_structs`). -/
theorem C58_counterexample_bitfields :
    namesOf c%"struct s { int a : 1, b : 2; int c; };" = [[c%"struct s"], [], [c%"c"], [c%"s"], []] ∧
    (dget ((parseDefs exGram Store.empty c%"struct s { int a : 1, b : 2; int c; };").1.defs .structs) c%"s").map
      (fun d => match d with | .compound ms _ => ms.length | _ => 0) = some 0 ∧
    (dget ((parseDefs exGram Store.empty c%"struct s { int a : 1; int b : 2; int c; };").1.defs .structs) c%"s").map
      (fun d => match d with | .compound ms _ => ms.length | _ => 0) = some 3 := by
  refine ⟨?_, ?_, ?_⟩ <;> decide +kernel

/-- C58 does not extend to names that begin with two underscores (reserved in C, but common in system
headers). -/
theorem C58_counterexample_underscores : namesOf c%"int __x; int _y;" = [[], [], [c%"_y"], [], []] := by rfl

/-- C58 does not extend to an extra modifier in front of a declarator in parentheses, where calling conventions of
function pointers often stand: the declarator is taken for an argument of the modifier (`Optional(nestedExpr())`), the
declaration is not understood, and what the scan finds inside it is recorded: the typedef `cb` as a variable, whose
type is named after the modifier. -/
theorem C58_counterexample_modifier :
    let s := (parseDefs modGram Store.empty c%"typedef int API (*cb)(int);").1
    s.defs .types = [] ∧ s.defs .variables = [(c%"cb", .var .none
      ⟨c%"API", [.fn [(none, ⟨c%"int", [], [some []]⟩, none)], .sym c%"*"], [some [], some [], some []]⟩)] := by
  exact ⟨rfl, rfl⟩

/-- Where a declaration is not understood the scan goes on after its first character, and can find another
declaration inside it: `unsigned foo_t x;` (with `foo_t` a modified name) records `x` as a `foo_t`. -/
theorem C58_counterexample_rescan :
    (parseDefs exGram Store.empty c%"unsigned foo_t x;").1.defs .variables =
      [(c%"x", .var .none ⟨c%"foo_t", [], [some []]⟩)] := by rfl

end Pyclib
