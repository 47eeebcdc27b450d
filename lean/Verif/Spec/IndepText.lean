import Verif.Spec.Independent
import Verif.Model.Store
/-
What matters to a text, whether or not it can be read as declarations.
-/
namespace Pyclib.Spec

/-- `y` is a position in the text after `x`. -/
def Within (y x : Pos) : Prop := ∃ a : Str, x.rest = a ++ y.rest ∧ y.prev = a.getLastD x.prev

/-- `e` is an expression of which the parser computes the value if it comes to `y`: after `=` or `[`, or in a list in braces
after `=`. -/
def ExprAt (cfg : Cfg) (y : Pos) (e : Str) : Prop :=
  ((y.prev = '=' ∨ y.prev = '[') ∧ ∃ z, exprP cfg y = some (e, z)) ∨
  (y.prev = '=' ∧ ∃ u es z, lit '{' y = some u ∧ delimited (exprP cfg) u = some (es, z) ∧ e ∈ es)

/-- The scope has all that the reading of the text after `x` looks up: the names that the values of the expressions in it
depend on, the tags of structs, unions and enums, and the names given to those without tag if there are any.  Nothing is said
about the names that the text defines. -/
structure CoversText (g : Gram) (S : Scope) (x : Pos) : Prop where
  expr : ∀ y e, Within y x → ExprAt g.cfg y e → EvSame g S e
  minus : EvSame g S c%"-1"
  tag : ∀ y u z n v, Within y x → structKw y = some (u, z) → identP g.cfg z = some (n, v) → S.tags n
  anon : ∀ y u z v, Within y x → structKw y = some (u, z) → delim '{' z = some v → ∀ i,
    S.tags (c%"anon_" ++ compWord u ++ natDigits i)
  etag : ∀ y z n v, Within y x → keyword c%"enum" y = some z → identP g.cfg z = some (n, v) → S.tags n
  eanon : ∀ y z v, Within y x → keyword c%"enum" y = some z → delim '{' z = some v → ∀ i,
    S.tags (c%"anon_" ++ c%"enum" ++ natDigits i)

/-- Calls of `add_def`, and of `rem_def` for the macros in `U`. -/
def isEdit (U : Str → Prop) : Op DefVal → Prop
  | .add _ _ _ => True
  | .rem k n => k = .macros ∧ U n
  | .file _ | .imp _ => False

/-- The same calls lead from `s` to `s'` and from `t` to `t'`. -/
def SameOps (U : Str → Prop) (s s' t t' : St) : Prop :=
  ∃ ops : List (Op DefVal), (∀ o ∈ ops, isEdit U o) ∧ s' = runOps s ops ∧ t' = runOps t ops

/-- What is the same when a text is read with the tables `s` and with the tables `t`, ending with `s'` and `t'`. -/
structure Alike (S : Scope) (s t s' t' : St) : Prop where
  agree : SameOn S s' t'
  effect : SameOps (fun _ => False) s s' t t'

end Pyclib.Spec
