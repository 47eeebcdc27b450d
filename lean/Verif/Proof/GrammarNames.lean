import Verif.Proof.GrammarSuf
import Verif.Spec.TextWords
import Verif.Proof.GrammarFuelDecl
import Verif.Proof.Adds
import Verif.Proof.Decl
/-
The names that the parsers record, and the calling conventions that they pass on, are words of the text.
-/
namespace Pyclib
open Spec

/-- A calling convention stands in the text. -/
def ConvAt (x : Pos) : Prop := WordAt c%"__cdecl" x ∨ WordAt c%"__stdcall" x

@[grind →] theorem ConvAt.mono {x y : Pos} (h : ConvAt y) (hs : Suf y x) : ConvAt x :=
  h.imp (·.mono hs) (·.mono hs)

/-- The word `w` stands in the text after `x`, followed by an opening brace. -/
def OpenAt (w : Str) (x : Pos) : Prop :=
  ∃ y b, Suf y x ∧ isIdC y.prev = false ∧ y.rest = w ++ b ∧ (∀ c, b.head? = some c → isIdC c = false) ∧ Opens b

theorem OpenAt.mono {w : Str} {x y : Pos} (h : OpenAt w y) (hs : Suf y x) : OpenAt w x := by
  obtain ⟨z, b, h1, h2⟩ := h
  exact ⟨z, b, h1.trans hs, h2⟩

theorem opens_white : ∀ (p : Char) (s : Str), Opens (skipWs p s).rest → Opens s
  | _, [], h => h
  | p, c :: s, h => by
    unfold skipWs at h
    split at h
    · rename_i hc
      refine .white c s ?_ (opens_white c s h)
      simpa [isWhite, or_assoc] using hc
    · exact h

theorem opens_skipQuoted : ∀ (n : Nat) (x : Pos), Opens (skipQuoted n x).rest → Opens x.rest
  | 0, _, h => h
  | n + 1, x, h => by
    unfold skipQuoted at h
    split at h
    · rename_i w y e
      have h := opens_skipQuoted n y h
      unfold quotedTok at e
      split at e
      · cases e
      · rename_i q s e0
        split at e
        · rename_i hq
          obtain ⟨p, h1, h2⟩ := Option.map_eq_some_iff.1 e
          cases h2
          obtain ⟨b', hb⟩ := matchQuoted_last (b := p.1) (r := p.2) h1
          have he := matchQuoted_eq (b := p.1) (r := p.2) h1
          refine opens_white x.prev x.rest ?_
          show Opens x.skip.rest
          rw [e0, ← he, hb, List.append_assoc]
          exact .quoted q b' _ (by simpa using hq) h
        · cases e
    · exact h

theorem opens_delim {x y : Pos} (h : delim '{' x = some y) : Opens x.rest := by
  unfold delim lit at h
  refine opens_skipQuoted x.rest.length x (opens_white (skipQuoted x.rest.length x).prev (skipQuoted x.rest.length x).rest ?_)
  show Opens (skipQuoted x.rest.length x).skip.rest
  split at h
  · cases h
  · rename_i e
    split at h
    · rename_i hc
      rw [e, hc]
      exact .brace _
    · cases h

theorem openAt_keyword {k : Str} {x y z : Pos} (h : keyword k x = some y) (hd : delim '{' y = some z) : OpenAt k x := by
  unfold keyword at h
  simp only at h
  split at h
  · cases h
  · rename_i hp
    split at h <;> cases h
    rename_i hm
    exact ⟨x.skip, x.skip.rest.dropWhile isIdC, suf_skip x, by simpa using hp,
      by rw [← hm]; exact List.takeWhile_append_dropWhile.symm, dropWhile_first _ _, opens_delim hd⟩

theorem openAt_structKw {u : Bool} {x y z : Pos} (h : structKw x = some (u, y)) (hd : delim '{' y = some z) :
    OpenAt (compWord u) x := by
  unfold structKw at h
  split at h
  · rename_i e
    cases h
    exact openAt_keyword e hd
  · obtain ⟨p, h1, h2⟩ := Option.map_eq_some_iff.1 h
    cases h2
    exact openAt_keyword h1 hd

/-- The words `w` and `n` stand in the text after `x` with white space between them, followed by an opening brace. -/
def BodyAt (w n : Str) (x : Pos) : Prop :=
  ∃ y ws b, Suf y x ∧ isIdC y.prev = false ∧ y.rest = w ++ (ws ++ (n ++ b)) ∧ (ws ≠ [] ∧ ws.all isWhite = true) ∧
    (∀ c, b.head? = some c → isIdC c = false) ∧ Opens b

theorem BodyAt.mono {w n : Str} {x y : Pos} (h : BodyAt w n y) (hs : Suf y x) : BodyAt w n x := by
  obtain ⟨z, ws, b, h1, h2⟩ := h
  exact ⟨z, ws, b, h1.trans hs, h2⟩

theorem skipWs_white_split : ∀ (t : Str) (p : Char), ∃ ws, ws.all isWhite = true ∧ t = ws ++ (skipWs p t).rest ∧
    (ws = [] → (skipWs p t).prev = p)
  | [], p => ⟨[], rfl, rfl, fun _ => rfl⟩
  | c :: t, p => by
    unfold skipWs
    split
    · rename_i hc
      obtain ⟨ws, h1, h2, _⟩ := skipWs_white_split t c
      exact ⟨c :: ws, by simp [hc, h1], by rw [List.cons_append, ← h2], by simp⟩
    · exact ⟨[], rfl, rfl, fun _ => rfl⟩

theorem bodyAt_keyword {cfg : Cfg} {w n : Str} {x y z v : Pos} (hw : w ≠ []) (hl : ∀ c, isIdC (w.getLastD c) = true)
    (h : keyword w x = some y) (hi : identP cfg y = some (n, z)) (hd : delim '{' z = some v) : BodyAt w n x := by
  unfold keyword at h
  simp only at h
  split at h
  · cases h
  · rename_i hp
    split at h <;> cases h
    rename_i hm
    unfold identP at hi
    simp only at hi
    split at hi
    · cases hi
    · rename_i hp2
      split at hi
      · cases hi
      · split at hi <;> cases hi
        have hr : x.skip.rest = w ++ x.skip.rest.dropWhile isIdC := by
          rw [← hm]; simp only [List.takeWhile_append_dropWhile]
        obtain ⟨ws, h1, h2, h3⟩ := skipWs_white_split (x.skip.rest.dropWhile isIdC) (w.getLastD ' ')
        refine ⟨x.skip, ws, (posAfter w (x.skip.rest.dropWhile isIdC)).skip.rest.dropWhile isIdC, suf_skip x, by simpa using hp, ?_,
          ⟨fun hws => ?_, h1⟩, dropWhile_first _ _, ?_⟩
        · rw [List.takeWhile_append_dropWhile]
          show x.skip.rest = w ++ (ws ++ (skipWs (w.getLastD ' ') (x.skip.rest.dropWhile isIdC)).rest)
          rw [← h2]
          exact hr
        · have := h3 hws
          refine hp2 ?_
          show isIdC (skipWs (w.getLastD ' ') (x.skip.rest.dropWhile isIdC)).prev = true
          rw [this]
          exact hl _
        · exact opens_delim hd

theorem bodyAt_structKw {cfg : Cfg} {u : Bool} {n : Str} {x y z v : Pos} (h : structKw x = some (u, y))
    (hi : identP cfg y = some (n, z)) (hd : delim '{' z = some v) : BodyAt (compWord u) n x := by
  unfold structKw at h
  split at h
  · rename_i e
    cases h
    exact bodyAt_keyword (by decide) (fun _ => by rfl) e hi hd
  · obtain ⟨p, h1, h2⟩ := Option.map_eq_some_iff.1 h
    cases h2
    exact bodyAt_keyword (by decide) (fun _ => by rfl) h1 hi hd

/-- What may be recorded under a tag that has an entry: for structs and unions a definition with members, where the tag and an
opening brace stand in the text; for enums nothing. -/
def TagAgain (x : Pos) (s : Store DefVal) (k : Kind) (n : Str) (v : DefVal) : Prop :=
  dhas (s.defs k) n = true →
    (∀ u, k = compKind u → BodyAt (compWord u) n x ∧ ∃ ms p, v = .compound ms p ∧ ms ≠ []) ∧ k ≠ .enums

theorem TagAgain.mono {x y : Pos} {s : Store DefVal} {k : Kind} {n : Str} {v : DefVal} (h : TagAgain y s k n v) (hs : Suf y x) :
    TagAgain x s k n v := fun hd => ⟨fun u hu => ⟨((h hd).1 u hu).1.mono hs, ((h hd).1 u hu).2⟩, (h hd).2⟩

theorem again_other {x : Pos} {s : Store DefVal} {k : Kind} {n : Str} {v : DefVal}
    (h : k ≠ .structs ∧ k ≠ .unions ∧ k ≠ .enums) : TagAgain x s k n v := by
  refine fun _ => ⟨fun u hu => ?_, h.2.2⟩
  cases u
  · exact absurd hu h.1
  · exact absurd hu h.2.1

theorem again_new {x : Pos} {s : Store DefVal} {k : Kind} {n : Str} {v : DefVal} (h : dhas (s.defs k) n = false) :
    TagAgain x s k n v := fun hd => by rw [h] at hd; cases hd

/-- The tag of a struct, union or enum defined in the text: an identifier of the text, or a generated name. -/
def TagAt (x : Pos) (w t : Str) : Prop :=
  WordAt w x ∧ (IdentAt t x ∨ OpenAt w x ∧ ∃ i : Nat, t = c%"anon_" ++ w ++ natDigits i)

@[grind →] theorem TagAt.mono {x y : Pos} {w t : Str} (h : TagAt y w t) (hs : Suf y x) : TagAt x w t :=
  ⟨h.1.mono hs, h.2.imp (·.mono hs) fun h => ⟨h.1.mono hs, h.2⟩⟩

/-- What may be recorded from the text after `x`. -/
def MayAdd (x : Pos) : Kind → Str → Prop
  | .types, n => (IdentAt n x ∧ WordAt c%"typedef" x) ∨
      ∃ w t, (w = c%"struct" ∨ w = c%"union" ∨ w = c%"enum") ∧ n = w ++ ' ' :: t ∧ TagAt x w t
  | .structs, n => TagAt x c%"struct" n
  | .unions, n => TagAt x c%"union" n
  | .enums, n => TagAt x c%"enum" n
  | .variables, n | .functions, n | .values, n => IdentAt n x
  | .macros, _ | .fnmacros, _ => False

@[grind →] theorem MayAdd.mono {x y : Pos} {k : Kind} {n : Str} (h : MayAdd y k n) (hs : Suf y x) : MayAdd x k n := by
  cases k <;> simp only [MayAdd] at h ⊢
  all_goals first | exact h.mono hs | (try exact h) | skip
  rcases h with h | ⟨w, t, h1, h2, h3⟩
  · exact .inl ⟨h.1.mono hs, h.2.mono hs⟩
  · exact .inr ⟨w, t, h1, h2, h3.mono hs⟩

/-- The tables `s'` come from `s` by adding definitions under names of the text. -/
inductive AddsAt (x : Pos) : Store DefVal → Store DefVal → Prop
  | refl (s : Store DefVal) : AddsAt x s s
  | add (s s' : Store DefVal) (k : Kind) (n : Str) (v : DefVal) : MayAdd x k n → TagAgain x s' k n v → AddsAt x s s' →
      AddsAt x s (addDef s' k n v)

theorem AddsAt.mono {x y : Pos} {s s' : Store DefVal} (h : AddsAt y s s') (hs : Suf y x) : AddsAt x s s' := by
  induction h with
  | refl => exact .refl _
  | add s' k n v h1 h2 _ ih => exact .add _ _ _ _ _ (h1.mono hs) (h2.mono hs) ih

theorem AddsAt.trans {x : Pos} {a b c : Store DefVal} (h : AddsAt x a b) (h' : AddsAt x b c) : AddsAt x a c := by
  induction h' with
  | refl => exact h
  | add s' k n v h1 h2 _ ih => exact .add _ _ k n v h1 h2 ih

theorem AddsAt.one {x : Pos} {s : Store DefVal} {k : Kind} {n : Str} {v : DefVal} (h : MayAdd x k n)
    (h' : TagAgain x s k n v := by exact again_other (by decide)) :
    AddsAt x s (addDef s k n v) := .add _ _ _ _ _ h h' (.refl _)

/-- Two steps, the second on the rest of the text. -/
theorem AddsAt.step {x y : Pos} {a b c : Store DefVal} (h : AddsAt x a b) (h' : AddsAt y b c) (hs : Suf y x) :
    AddsAt x a c := h.trans (h'.mono hs)

/-- Declarators without a name in the text: the calling conventions are words of the text. -/
def AbsAt (x : Pos) (d : Decl) : Prop := ¬ d.ConvOk → ConvAt x
/-- Declarators with a name in the text. -/
def DeclAt (x : Pos) (d : Decl) : Prop := (∃ n, d.name = some n ∧ IdentAt n x) ∧ AbsAt x d

@[grind →] theorem AbsAt.mono {x y : Pos} {d : Decl} (h : AbsAt y d) (hs : Suf y x) : AbsAt x d := fun c => (h c).mono hs
@[grind →] theorem DeclAt.mono {x y : Pos} {d : Decl} (h : DeclAt y d) (hs : Suf y x) : DeclAt x d := by
  obtain ⟨⟨n, h1, h2⟩, h3⟩ := h
  exact ⟨⟨n, h1, h2.mono hs⟩, h3.mono hs⟩

/-- A property of results that is kept when the text becomes longer. -/
def KeptAt {α : Type} (Q : Pos → α → Prop) : Prop := ∀ x y a, Q y a → Suf y x → Q x a

theorem keeps_true {α : Type} : KeptAt (α := α) (fun _ _ => True) := fun _ _ _ _ _ => trivial
theorem keeps_decl : KeptAt DeclAt := fun _ _ _ h hs => h.mono hs
theorem keeps_abs : KeptAt AbsAt := fun _ _ _ h hs => h.mono hs

/-- The result of a parser on the text after `x`: what is recorded has names of the text, what is left is the end of the
text, and the result has the property `Q`. -/
def ResAt {α : Type} (Q : Pos → α → Prop) (s : Store DefVal) (x : Pos) (p : Store DefVal × Option (α × Pos)) : Prop :=
  AddsAt x s p.1 ∧ ∀ a y, p.2 = some (a, y) → Suf y x ∧ Q x a

/-- All results of a parser. -/
def SPIn {α : Type} (Q : Pos → α → Prop) (p : SP α) : Prop := ∀ s x, ResAt Q s x (p s x)

theorem ResAt.of_eq {α : Type} {Q : Pos → α → Prop} {s s1 : Store DefVal} {x : Pos}
    {p : Store DefVal × Option (α × Pos)} {o : Option (α × Pos)} (h : ResAt Q s x p) (e : p = (s1, o)) :
    AddsAt x s s1 ∧ ∀ a y, o = some (a, y) → Suf y x ∧ Q x a := by subst e; exact h

theorem ResAt.fail {α : Type} {Q : Pos → α → Prop} {s s1 : Store DefVal} {x : Pos} (h : AddsAt x s s1) :
    ResAt Q s x (s1, none) := ⟨h, fun _ _ e => by cases e⟩

theorem ResAt.ok {α : Type} {Q : Pos → α → Prop} {s s1 : Store DefVal} {x y : Pos} {a : α} (h : AddsAt x s s1)
    (hs : Suf y x) (hq : Q x a) : ResAt Q s x (s1, some (a, y)) :=
  ⟨h, fun _ _ e => by cases e; exact ⟨hs, hq⟩⟩

theorem ResAt.map {α β : Type} {Q : Pos → α → Prop} {s s1 : Store DefVal} {x : Pos} {o : Option β} {f : β → α × Pos}
    (h : AddsAt x s s1) (hq : ∀ b, o = some b → Suf (f b).2 x ∧ Q x (f b).1) : ResAt Q s x (s1, o.map f) := by
  refine ⟨h, fun a y e => ?_⟩
  obtain ⟨b, h1, h2⟩ := Option.map_eq_some_iff.1 e
  have := hq b h1
  rw [h2] at this
  exact this

/-- The same result, with steps before it. -/
theorem ResAt.after {α : Type} {Q : Pos → α → Prop} (hQ : KeptAt Q) {s s1 : Store DefVal} {x y : Pos}
    {p : Store DefVal × Option (α × Pos)} (h : AddsAt x s s1) (hs : Suf y x) (hp : ResAt Q s1 y p) : ResAt Q s x p :=
  ⟨h.step hp.1 hs, fun a z e => ⟨((hp.2 a z e).1).trans hs, hQ _ _ _ (hp.2 a z e).2 hs⟩⟩

/-- The recursive elements. -/
structure RecIn (r : Rec) : Prop where
  type : SPIn (fun _ _ => True) r.type
  decl : SPIn DeclAt r.decl
  abs : SPIn AbsAt r.abs

/-! ### Text only -/

theorem suf_nestedD {o c : Char} (x : Pos) : Suf ((nestedP o c x).getD x) x := by
  cases h : nestedP o c x with
  | none => exact Suf.refl x
  | some y => exact suf_nestedP h

theorem suf_delimD {c : Char} (x : Pos) : Suf ((delim c x).getD x) x := by
  cases h : delim c x with
  | none => exact Suf.refl x
  | some y => exact suf_delim h

theorem suf_litD {c : Char} (x : Pos) : Suf ((lit c x).getD x) x := by
  cases h : lit c x with
  | none => exact Suf.refl x
  | some y => exact suf_lit h

theorem suf_exprD {cfg : Cfg} (t : Str) (x : Pos) : Suf ((exprP cfg x).getD (t, x)).2 x := by
  cases h : exprP cfg x with
  | none => exact Suf.refl x
  | some y => exact suf_exprP h

theorem suf_fundWords {g : Gram} (hg : NoEmpty g) {x : Pos} {w : Str} {y : Pos} (h : kwl (fundWords g.cfg) x = some (w, y)) :
    Suf y x := suf_kwl hg.1 h

theorem suf_fundLoop {g : Gram} (hg : NoEmpty g) : ∀ (n : Nat) (x : Pos), Suf (fundLoop g.cfg n x).2 x
  | 0, x => Suf.refl x
  | n + 1, x => by
    have h1 := suf_fundLoop hg n
    have h2 := @suf_fundWords g hg
    unfold fundLoop
    grind

theorem suf_fundP {g : Gram} (hg : NoEmpty g) {x : Pos} {w : Str} {y : Pos} (h : fundP g.cfg x = some (w, y)) : Suf y x := by
  have h1 := suf_fundLoop hg
  have h2 := @suf_fundWords g hg
  unfold fundP at h
  grind

theorem suf_modLoop {mods : List Str} (hm : [] ∉ mods) : ∀ (n : Nat) (x : Pos), Suf (modLoop mods n x) x
  | 0, x => Suf.refl x
  | n + 1, x => by
    have h1 := suf_modLoop hm n
    unfold modLoop
    split
    · rename_i y e
      exact ((h1 _).trans (suf_nestedD y)).trans (suf_kwl hm e)
    · exact Suf.refl x

theorem suf_initP {cfg : Cfg} (x : Pos) : Suf (initP cfg x).2 x := by
  have h1 := @suf_bind _ _ (suf_delimited (sufP_exprP cfg))
  unfold initP
  grind
grind_pattern suf_initP => initP cfg x

theorem suf_storageP (x : Pos) : Suf (storageP x) x := by
  unfold storageP
  grind
grind_pattern suf_storageP => storageP x

theorem suf_optIdent {cfg : Cfg} (x : Pos) : Suf (optIdent cfg x).2 x ∧ ∀ n, (optIdent cfg x).1 = some n → IdentAt n x := by
  unfold optIdent
  grind

theorem suf_structKw {x y : Pos} {u : Bool} (h : structKw x = some (u, y)) : Suf y x ∧ WordAt (compWord u) x := by
  unfold structKw at h
  split at h
  · rename_i e
    cases h
    exact suf_keyword (by decide) e
  · obtain ⟨z, h1, h2⟩ := Option.map_eq_some_iff.1 h
    cases h2
    exact suf_keyword (by decide) h1

/-- Enumerators are identifiers of the text. -/
def EnumsAt (x : Pos) (ms : List (Str × Option Str)) : Prop := ∀ m ∈ ms, IdentAt m.1 x

theorem suf_enumeratorP {cfg : Cfg} {x y : Pos} {m : Str × Option Str} (h : enumeratorP cfg x = some (m, y)) :
    Suf y x ∧ IdentAt m.1 x := by
  have h1 := @suf_bind _ _ (sufP_exprP cfg)
  unfold enumeratorP at h
  grind

theorem enums_commaLoop {cfg : Cfg} : ∀ (n : Nat) (x : Pos),
    Suf (commaLoop (enumeratorP cfg) n x).2 x ∧ EnumsAt x (commaLoop (enumeratorP cfg) n x).1
  | 0, x => ⟨Suf.refl x, by simp [EnumsAt, commaLoop]⟩
  | n + 1, x => by
    have ih := enums_commaLoop (cfg := cfg) n
    have h1 := @suf_enumeratorP cfg
    unfold EnumsAt at ih ⊢
    unfold commaLoop
    grind

theorem enums_delimited {cfg : Cfg} {x y : Pos} {ms : List (Str × Option Str)}
    (h : delimited (enumeratorP cfg) x = some (ms, y)) : Suf y x ∧ EnumsAt x ms := by
  have h1 := @suf_enumeratorP cfg
  have h2 := @enums_commaLoop cfg
  unfold EnumsAt at h2 ⊢
  unfold delimited at h
  grind

theorem suf_enumBodyP {cfg : Cfg} {x y : Pos} {ms : List (Str × Option Str)} (h : enumBodyP cfg x = some (ms, y)) :
    Suf y x ∧ EnumsAt x ms := by
  have h1 := @enums_delimited cfg
  unfold enumBodyP at h
  unfold EnumsAt at h1 ⊢
  cases e : delim '{' x with
  | none => rw [e] at h; cases h
  | some u =>
    rw [e] at h
    simp only [Option.bind_some] at h
    split at h
    · cases h
    · rename_i ms' z e2
      obtain ⟨v, h3, h4⟩ := Option.map_eq_some_iff.1 h
      cases h4
      obtain ⟨h5, h6⟩ := h1 e2
      exact ⟨(((suf_delim h3).trans (suf_delimD z)).trans h5).trans (suf_delim e), fun m hm => (h6 m hm).mono (suf_delim e)⟩

theorem suf_convP (x : Pos) : Suf (convP x).2 x ∧ ∀ c, (convP x).1 = some c → (c = c%"__cdecl" ∨ c = c%"__stdcall") ∧ ConvAt x := by
  have h1 := @suf_keyword c%"__cdecl" (by decide)
  have h2 := @suf_keyword c%"__stdcall" (by decide)
  unfold convP ConvAt
  grind

theorem suf_ptrLoop {cfg : Cfg} : ∀ (n : Nat) (x : Pos), Suf (ptrLoop cfg n x).2 x
  | 0, x => Suf.refl x
  | n + 1, x => by
    have := suf_ptrLoop (cfg := cfg) n
    unfold ptrLoop
    grind
grind_pattern suf_ptrLoop => ptrLoop cfg n x

theorem suf_arrayLoop {cfg : Cfg} (n : Nat) : ∀ (x : Pos), Suf (arrayLoop cfg n x).2 x := by
  induction n with
  | zero => intro x; exact Suf.refl x
  | succ n h1 =>
    intro x
    rw [arrayLoop_succ]
    cases e : lit '[' x with
    | none => exact Suf.refl x
    | some y =>
      have h2 := suf_exprD (cfg := cfg) c%"-1" y
      cases e2 : delim ']' ((exprP cfg y).getD (c%"-1", y)).2 with
      | none => simp only [e2]; exact Suf.refl x
      | some z =>
        simp only [e2]
        exact (((h1 z).trans (suf_delim e2)).trans h2).trans (suf_lit e)
grind_pattern suf_arrayLoop => arrayLoop cfg n x

theorem suf_defaultP {cfg : Cfg} (x : Pos) : Suf (defaultP cfg x).2 x := by
  have h1 := @suf_bind _ _ (sufP_exprP cfg)
  unfold defaultP
  grind
grind_pattern suf_defaultP => defaultP cfg x

end Pyclib
