import Verif.Model.Grammar
/-! Whatever the text, parsing changes the tables only by adding definitions that are not macros. -/
namespace Pyclib

/-- The tables `s'` come from `s` by adding definitions that are not macros. -/
inductive Adds : Store DefVal → Store DefVal → Prop
  | refl (s : Store DefVal) : Adds s s
  | add (s s' : Store DefVal) (k : Kind) (n : Str) (v : DefVal) : k ≠ .macros → k ≠ .fnmacros → Adds s s' →
      Adds s (addDef s' k n v)

theorem Adds.trans {a b c : Store DefVal} (h : Adds a b) (h' : Adds b c) : Adds a c := by
  induction h' with
  | refl => exact h
  | add s' k n v h1 h2 _ ih => exact .add _ _ k n v h1 h2 ih

theorem Adds.one {s : Store DefVal} {k : Kind} {n : Str} {v : DefVal} (h1 : k ≠ .macros) (h2 : k ≠ .fnmacros) :
    Adds s (addDef s k n v) := .add _ _ _ _ _ h1 h2 (.refl _)

theorem adds_enumLoop (ev : EvalExpr) : ∀ (ms : List (Str × Option Str)) (s : Store DefVal) (i : PVal) (d : Dict Str PVal),
    Adds s (enumLoop ev s i d ms).1
  | [], s, _, _ => .refl s
  | (n, e) :: ms, s, i, d => by
    simp only [enumLoop]
    have h1 : ∀ v, Adds s (addDef s .values n v) := fun v => .one (by decide) (by decide)
    split
    · exact (h1 _).trans (adds_enumLoop ev ms _ _ _)
    · exact (h1 _).trans (adds_enumLoop ev ms _ _ _)
    · exact h1 _

theorem adds_procEnum (ev : EvalExpr) (s : Store DefVal) (name : Option Str) (ms : List (Str × Option Str)) :
    Adds s (procEnum ev s name ms).1 := by
  simp only [procEnum]
  split
  · exact .refl s
  · have h := adds_enumLoop ev ms s (.int 0) []
    split
    · rename_i e; rw [e] at h; exact h
    · rename_i e; rw [e] at h
      exact .add _ _ _ _ _ (by decide) (by decide) (.add _ _ _ _ _ (by decide) (by decide) h)

theorem adds_procStruct (ev : EvalExpr) (s : Store DefVal) (u : Bool) (name : Option Str) (ms : List MemberDecl)
    (pk : Option Nat) : Adds s (procStruct ev s u name ms pk).1 := by
  simp only [procStruct]
  split
  · split
    · exact .refl s
    · exact .add _ _ _ _ _ (by decide) (by decide) (.one (by cases u <;> decide) (by cases u <;> decide))
  · exact .refl s

theorem adds_typedefLoop (ev : EvalExpr) (tq : List Str) (tn : Str) : ∀ (ds : List Decl) (s : Store DefVal),
    Adds s (typedefLoop ev tq tn s ds).1
  | [], s => .refl s
  | d :: ds, s => by
    simp only [typedefLoop]
    split
    · exact .refl s
    · exact (Adds.one (by decide) (by decide)).trans (adds_typedefLoop ev tq tn ds _)

theorem adds_varLoop (ev : EvalExpr) (tq : List Str) (tn : Str) (val : PVal) : ∀ (ds : List Decl) (s : Store DefVal),
    Adds s (varLoop ev tq tn val s ds).1
  | [], s => .refl s
  | d :: ds, s => by
    simp only [varLoop]
    split
    · exact .refl s
    · split
      · split
        · exact .refl s
        · exact (Adds.one (by decide) (by decide)).trans (adds_varLoop ev tq tn val ds _)
      · exact (Adds.one (by decide) (by decide)).trans ((Adds.one (by decide) (by decide)).trans
          (adds_varLoop ev tq tn val ds _))

theorem adds_procFunction (ev : EvalExpr) (s : Store DefVal) (tq : List Str) (tn : Str) (d : Decl) :
    Adds s (procFunction ev s tq tn d) := by
  simp only [procFunction]
  split
  · exact .refl s
  · split
    · split
      · exact .refl s
      · exact .one (by decide) (by decide)
    · exact .refl s

/-- The parser only adds definitions. -/
def SPAdds {α : Type} (p : SP α) : Prop := ∀ s x, Adds s (p s x).1

/-- The recursive elements only add definitions. -/
structure RecAdds (r : Rec) : Prop where
  type : SPAdds r.type
  decl : SPAdds r.decl
  abs : SPAdds r.abs

/-- The tables after a step. -/
theorem Adds.of_eq {β : Type} {s s1 : Store DefVal} {p : Store DefVal × β} {o : β} (h : Adds s p.1) (e : p = (s1, o)) :
    Adds s s1 := by rw [e] at h; exact h

theorem adds_commaLoop {α : Type} {p : SP α} (hp : SPAdds p) : ∀ (n : Nat) (s : Store DefVal) (x : Pos),
    Adds s (commaLoopS p n s x).1
  | 0, s, _ => .refl s
  | n + 1, s, x => by
    simp only [commaLoopS]
    split
    · exact .refl s
    · rename_i y _
      have h1 := hp s y
      split
      · rename_i e; exact h1.of_eq e
      · rename_i s1 a z e
        exact (h1.of_eq e).trans (adds_commaLoop hp n s1 z)

theorem adds_delimited {α : Type} {p : SP α} (hp : SPAdds p) : SPAdds (delimitedS p) := by
  intro s x
  simp only [delimitedS]
  have h1 := hp s x
  split
  · rename_i e; exact h1.of_eq e
  · rename_i s1 a y e
    exact (h1.of_eq e).trans (adds_commaLoop hp y.rest.length s1 y)

theorem adds_varP {g : Gram} {r : Rec} (hr : RecAdds r) : SPAdds (varP g r) := by
  intro s x
  simp only [varP]
  have h1 := hr.type s (storageP x)
  split
  · rename_i e; exact h1.of_eq e
  · rename_i s1 tq tn y e
    have h2 := (h1.of_eq e).trans (adds_delimited hr.decl s1 y)
    split
    · exact h2
    · exact h2

theorem adds_bitP {r : Rec} (hr : RecAdds r) : SPAdds (bitP r) := by
  intro s x
  simp only [bitP, optDecls]
  have h1 := hr.type s x
  split
  · rename_i e; exact h1.of_eq e
  · rename_i s1 tq tn y e
    have h2 := (h1.of_eq e).trans (adds_delimited hr.decl s1 y)
    split
    · exact h2
    · split
      · exact h2
      · exact h2

theorem adds_methodP {r : Rec} (hr : RecAdds r) : SPAdds (methodP r) := by
  intro s x
  simp only [methodP]
  have h1 := hr.decl s x
  split
  · rename_i e; exact h1.of_eq e
  · rename_i e; exact h1.of_eq e

theorem adds_typedMethodP {r : Rec} (hr : RecAdds r) : SPAdds (typedMethodP r) := by
  intro s x
  simp only [typedMethodP]
  have h1 := hr.type s x
  split
  · rename_i e; exact h1.of_eq e
  · rename_i e; exact (h1.of_eq e).trans (adds_methodP hr _ _)

theorem adds_memberP {g : Gram} {r : Rec} (hr : RecAdds r) : SPAdds (memberP g r) := by
  intro s x
  simp only [memberP]
  have h1 := adds_varP (g := g) hr s x
  split
  · rename_i e; exact h1.of_eq e
  · rename_i s1 e
    have h2 := (h1.of_eq e).trans (adds_bitP hr s1 x)
    split
    · rename_i e; exact h2.of_eq e
    · rename_i s2 e
      have h3 := (h2.of_eq e).trans (adds_typedMethodP hr s2 x)
      split
      · rename_i e; exact h3.of_eq e
      · rename_i s3 e
        have h4 := (h3.of_eq e).trans (adds_methodP hr s3 x)
        split
        · rename_i e; exact h4.of_eq e
        · rename_i e; exact h4.of_eq e

theorem adds_memberLoop {g : Gram} {r : Rec} (hr : RecAdds r) : ∀ (n : Nat) (s : Store DefVal) (x : Pos),
    Adds s (memberLoop g r n s x).1
  | 0, s, _ => .refl s
  | n + 1, s, x => by
    simp only [memberLoop]
    have h1 := adds_memberP (g := g) hr s x
    split
    · rename_i e; exact h1.of_eq e
    · rename_i s1 m y e
      exact (h1.of_eq e).trans (adds_memberLoop hr n s1 y)

theorem adds_bodyP {g : Gram} {r : Rec} (hr : RecAdds r) : SPAdds (bodyP g r) := by
  intro s x
  simp only [bodyP]
  split
  · exact .refl s
  · rename_i y _
    have h1 := adds_memberP (g := g) hr s y
    split
    · rename_i e; exact h1.of_eq e
    · rename_i s1 m z e
      exact (h1.of_eq e).trans (adds_memberLoop hr _ s1 z)

theorem adds_structP {g : Gram} {r : Rec} (hr : RecAdds r) : SPAdds (structP g r) := by
  intro s x
  simp only [structP, structP.finish]
  split
  · exact .refl s
  · rename_i u y _
    have h1 := adds_bodyP (g := g) hr s (optIdent g.cfg y).2
    split
    · rename_i e; exact (h1.of_eq e).trans (adds_procStruct _ _ _ _ _ _)
    · rename_i e
      split
      · exact h1.of_eq e
      · exact (h1.of_eq e).trans (adds_procStruct _ _ _ _ _ _)

theorem adds_enumP {g : Gram} : SPAdds (enumP g) := by
  intro s x
  simp only [enumP, enumP.finish]
  split
  · exact .refl s
  · split
    · exact adds_procEnum _ _ _ _
    · split
      · exact .refl s
      · exact adds_procEnum _ _ _ _

theorem adds_typeSpecP {g : Gram} {r : Rec} (hr : RecAdds r) : SPAdds (typeSpecP g r) := by
  have hn : SPAdds (typeNameP g r) := by
    intro s x
    simp only [typeNameP]
    split
    · exact .refl s
    · split
      · exact .refl s
      · have h1 := adds_structP (g := g) hr s x
        split
        · rename_i e; exact h1.of_eq e
        · rename_i e; exact (h1.of_eq e).trans (adds_enumP _ _)
  intro s x
  simp only [typeSpecP]
  have h1 := hn s (qualP g.cfg x).2
  split
  · rename_i e; exact h1.of_eq e
  · rename_i e; exact h1.of_eq e

theorem adds_argsP {g : Gram} {r : Rec} (hr : RecAdds r) {dp : SP Decl} (hd : SPAdds dp) (s : Store DefVal) (x : Pos) :
    Adds s (argsP g r dp s x).1 := by
  have hp : SPAdds (paramP g r dp) := by
    intro s x
    simp only [paramP]
    have h1 := hr.type s x
    split
    · rename_i e; exact h1.of_eq e
    · rename_i s1 tq tn y e
      have h2 := (h1.of_eq e).trans (hd s1 y)
      split
      · rename_i e; exact h2.of_eq e
      · rename_i e; exact h2.of_eq e
  simp only [argsP]
  split
  · exact .refl s
  · rename_i y _
    have h1 := adds_delimited hp s y
    split
    · exact h1
    · exact h1

theorem adds_anyDecl {r : Rec} (hr : RecAdds r) : SPAdds (anyDecl r) := by
  intro s x
  simp only [anyDecl]
  have h1 := hr.decl s x
  split
  · rename_i e; exact h1.of_eq e
  · rename_i e; exact (h1.of_eq e).trans (hr.abs _ _)

theorem adds_declP {g : Gram} {r : Rec} (hr : RecAdds r) : SPAdds (declP g r) := by
  have hc : SPAdds (declCoreP g r) := by
    intro s x
    simp only [declCoreP]
    split
    · exact .refl s
    · split
      · exact .refl s
      · rename_i y _
        have h1 := hr.decl s y
        split
        · rename_i e; exact h1.of_eq e
        · rename_i e; exact h1.of_eq e
  intro s x
  simp only [declP]
  have h1 := hc s (ptrLoop g.cfg (convP (qualP g.cfg x).2).2.rest.length (convP (qualP g.cfg x).2).2).2
  split
  · rename_i e; exact h1.of_eq e
  · rename_i s1 ref core y e
    exact (h1.of_eq e).trans (adds_argsP hr (adds_anyDecl hr) s1 y)

theorem adds_absP {g : Gram} {r : Rec} (hr : RecAdds r) : SPAdds (absP g r) := by
  intro s x
  simp only [absP]
  exact adds_argsP hr hr.abs s _

theorem adds_gram (g : Gram) : ∀ n, RecAdds (gram g n)
  | 0 => ⟨fun s _ => .refl s, fun s _ => .refl s, fun s _ => .refl s⟩
  | n + 1 => ⟨adds_typeSpecP (adds_gram g n), adds_declP (adds_gram g n), adds_absP (adds_gram g n)⟩

theorem adds_topP {g : Gram} {r : Rec} (hr : RecAdds r) (s : Store DefVal) (x : Pos) : Adds s (topP g r s x).1 := by
  have ht : SPAdds (typedefP r) := by
    intro s x
    simp only [typedefP]
    split
    · exact .refl s
    · rename_i y _
      have h1 := hr.type s y
      split
      · rename_i e; exact h1.of_eq e
      · rename_i s1 t z e
        have h2 := (h1.of_eq e).trans (adds_delimited hr.decl s1 z)
        split
        · rename_i e; exact h2.of_eq e
        · rename_i e; exact h2.of_eq e
  have hf : SPAdds (functionP r) := by
    intro s x
    simp only [functionP]
    have h1 := hr.type s (storageP x)
    split
    · rename_i e; exact h1.of_eq e
    · rename_i s1 t y e
      have h2 := (h1.of_eq e).trans (hr.decl s1 y)
      split
      · rename_i e; exact h2.of_eq e
      · rename_i e; exact h2.of_eq e
  simp only [topP]
  have h1 := ht s x
  split
  · rename_i s1 tq tn ds y e
    have h2 := (h1.of_eq e).trans (adds_typedefLoop g.ev tq tn ds s1)
    split
    · rename_i e; exact h2.of_eq e
    · rename_i e; exact h2.of_eq e
  · rename_i s1 e
    have h2 := (h1.of_eq e).trans (adds_varP (g := g) hr s1 x)
    split
    · rename_i e; exact (h2.of_eq e).trans (adds_varLoop _ _ _ _ _ _)
    · rename_i s2 e
      have h3 := (h2.of_eq e).trans (hf s2 x)
      split
      · rename_i e; exact (h3.of_eq e).trans (adds_procFunction _ _ _ _ _)
      · rename_i e; exact h3.of_eq e

theorem adds_scan (g : Gram) (n : Nat) : ∀ (k : Nat) (s : Store DefVal) (x : Pos), Adds s (scan g n k s x).1
  | 0, s, _ => .refl s
  | k + 1, s, x => by
    simp only [scan]
    split
    · exact .refl s
    · have h1 := adds_topP (g := g) (adds_gram g n) s x.skip
      split
      · rename_i e; exact h1.of_eq e
      · rename_i e; exact (h1.of_eq e).trans (adds_scan g n k _ _)
      · rename_i e; exact (h1.of_eq e).trans (adds_scan g n k _ _)

theorem adds_parseDefs (g : Gram) (s : Store DefVal) (text : Str) : Adds s (parseDefs g s text).1 := adds_scan _ _ _ _ _

end Pyclib
