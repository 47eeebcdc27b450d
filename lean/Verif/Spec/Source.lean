import Verif.Spec.Preproc
import Verif.Spec.Macro
/-
Specification of the source text of conditional compilation: what the lines of a header mean in C
(ISO C 6.10), character by character.
-/
namespace Pyclib.Spec
open Pyclib

/-- Blanks and tabs. -/
def Blank (s : Str) : Prop := ∀ c ∈ s, c = ' ' ∨ c = '\t'

/-- The line is a directive: `#` with blanks around it, a keyword, the rest. -/
def Directive (line kw rest : Str) : Prop :=
  ∃ a b, Blank a ∧ Blank b ∧ line = a ++ '#' :: (b ++ (kw ++ rest)) ∧ ∀ c, rest.head? = some c → c.isAlpha = false

/-- A name, with blanks in front of it, and what follows it. -/
def Named (rest x after : Str) : Prop :=
  ∃ a, a ≠ [] ∧ Blank a ∧ IsIdent x ∧ rest = a ++ (x ++ after) ∧ ∀ c, after.head? = some c → isWordC c = false

/-- The condition of a group. -/
inductive Cond where
  | expr (e : Str)
  | ifdef (x : Str)
  | ifndef (x : Str)

/-- The line opens a conditional group. -/
inductive IsIf : Str → Cond → Prop
  | expr (line e : Str) : Directive line c%"if" e → IsIf line (.expr e)
  | ifdef (line rest x b : Str) : Directive line c%"ifdef" rest → Named rest x b → Blank b → IsIf line (.ifdef x)
  | ifndef (line rest x b : Str) : Directive line c%"ifndef" rest → Named rest x b → Blank b → IsIf line (.ifndef x)

/-- Keywords of directives. -/
def dirWords : List Str :=
  [c%"if", c%"ifdef", c%"ifndef", c%"elif", c%"else", c%"endif", c%"define", c%"undef", c%"pragma"]

/-- The line is no conditional directive: text, definition, pragma, or another directive. -/
inductive IsLeaf : Str → Line → Prop
  | code (line : Str) : (∀ a r, line = a ++ '#' :: r → ∃ c ∈ a, isSpaceC c = false) → IsLeaf line (.code line)
  | define (line rest x body : Str) : Directive line c%"define" rest → Named rest x body → IsLeaf line (.define x body)
  | undef (line rest x after : Str) : Directive line c%"undef" rest → Named rest x after → IsLeaf line (.undef x)
  | pragma (line rest : Str) : Directive line c%"pragma" rest → IsLeaf line (.pragma rest)
  | other (line kw rest : Str) : Directive line kw rest → kw ≠ [] → (∀ c ∈ kw, c.isAlpha = true) → kw ∉ dirWords →
      IsLeaf line .other

mutual
/-- Source text of well nested conditionals: every line with its meaning. -/
inductive SBlock where
  | nil
  | leaf (line : Str) (l : Line) (rest : SBlock)
  | cond (line : Str) (c : Cond) (body : SBlock) (chain : SChain) (rest : SBlock)
/-- What follows the first branch. -/
inductive SChain where
  | endif (line : Str)
  | els (line : Str) (body : SBlock) (last : Str)
  | elif (line : Str) (e : Str) (body : SBlock) (tail : SChain)
end

mutual
/-- The lines of the text. -/
def SBlock.texts : SBlock → List Str
  | .nil => []
  | .leaf t _ rest => t :: rest.texts
  | .cond t _ body chain rest => t :: (body.texts ++ (chain.texts ++ rest.texts))
/-- The lines of a chain. -/
def SChain.texts : SChain → List Str
  | .endif t => [t]
  | .els t body t' => t :: (body.texts ++ [t'])
  | .elif t _ body tail => t :: (body.texts ++ tail.texts)
end

mutual
/-- Every line means what the tree says. -/
def SBlock.Ok : SBlock → Prop
  | .nil => True
  | .leaf t l rest => IsLeaf t l ∧ rest.Ok
  | .cond t c body chain rest => IsIf t c ∧ body.Ok ∧ chain.Ok ∧ rest.Ok
/-- Every line means what the chain says. -/
def SChain.Ok : SChain → Prop
  | .endif t => ∃ r, Directive t c%"endif" r
  | .els t body t' => (∃ r, Directive t c%"else" r) ∧ body.Ok ∧ ∃ r, Directive t' c%"endif" r
  | .elif t e body tail => Directive t c%"elif" e ∧ body.Ok ∧ tail.Ok
end

/-- C semantics of preprocessing: as `PPSem`, and which names are defined. -/
structure CSem (E : Type) extends PPSem E where
  defd : E → Str → Bool

/-- Does the condition hold? -/
def Cond.holds {E : Type} (sem : CSem E) (env : E) : Cond → Bool
  | .expr e => sem.cond env e
  | .ifdef x => sem.defd env x
  | .ifndef x => !sem.defd env x

mutual
/-- The final macro table, and the ordinary lines selected, each with the macro table in force there. -/
def SBlock.run {E : Type} (sem : CSem E) (env : E) : SBlock → E × List (E × Line)
  | .nil => (env, [])
  | .leaf _ l rest =>
    let r := rest.run sem (lineEnv sem.toPPSem env l)
    (r.1, (env, l) :: r.2)
  | .cond _ c body chain rest =>
    let r1 := if c.holds sem env then body.run sem env else chain.run sem env
    let r2 := rest.run sem r1.1
    (r2.1, r1.2 ++ r2.2)
/-- The rest of a conditional none of whose earlier conditions was true. -/
def SChain.run {E : Type} (sem : CSem E) (env : E) : SChain → E × List (E × Line)
  | .endif _ => (env, [])
  | .els _ body _ => body.run sem env
  | .elif _ e body tail => if sem.cond env e then body.run sem env else tail.run sem env
end

/-- The text kept. -/
def SBlock.text {E : Type} (sem : CSem E) (env : E) (b : SBlock) : List Str :=
  (b.run sem env).2.flatMap (fun p => lineText sem.toPPSem p.1 p.2)

/-- The names of macros are identifiers. -/
def NamesOk (env : MEnv) : Prop :=
  (∀ k v, dget env.macros k = some v → IsIdent k) ∧ ∀ k v, dget env.fnmacros k = some v → IsIdent k

end Pyclib.Spec
