import Verif.Model.Pretty
import Verif.Spec.Repr
/-!
Reading the text of a signature: result, name, and the parameters with type and name, where the types are
read with the reader of Python expressions in `Spec/Repr`.
-/
namespace Pyclib.Spec

/-- Characters of names. -/
def isNameC (c : Char) : Bool := c.isAlphanum || c = '_' || c = '$'

/-- Parameters, each a type, a blank and a name, separated by a comma and a blank, up to the closing parenthesis at the end. -/
def readParams : Nat → Str → Option (List (PyObj × Str))
  | 0, _ => none
  | k + 1, s =>
    match rd (3 * s.length + 3) s with
    | some (v, ' ' :: r) =>
      match r.dropWhile isNameC with
      | [')'] => some [(v, r.takeWhile isNameC)]
      | ',' :: ' ' :: t => (readParams k t).map ((v, r.takeWhile isNameC) :: ·)
      | _ => none
    | _ => none

/-- No sign of a pointer or a reference. -/
def notSign (c : Char) : Bool := !(c = '*' || c = '&')

/-- `result name(parameters)`: the result as the base and the signs after it, the name, the parameters. -/
def readSig (s : Str) : Option ((Str × Str) × Str × List (PyObj × Str)) :=
  let h := (s.takeWhile (· ≠ '(')).reverse
  let name := (h.takeWhile (· ≠ ' ')).reverse
  let ret := ((h.dropWhile (· ≠ ' ')).drop 1).reverse
  let res := (ret.takeWhile notSign, ret.dropWhile notSign)
  match s.dropWhile (· ≠ '(') with
  | ['(', ')'] => some (res, name, [])
  | '(' :: r => (readParams (r.length + 1) r).map (res, name, ·)
  | _ => none

/-- A name in those characters. -/
def NameText (n : Str) : Prop := n.all isNameC = true

/-- Results that a signature shows: a base type, pointers to it and references. -/
def RetShow (t : CType) : Prop :=
  (∀ c ∈ t.spec, c ≠ '(' ∧ c ≠ '*' ∧ c ≠ '&') ∧ ∀ m ∈ t.mods, m = .sym c%"*" ∨ m = .sym c%"&"

/-- The signs of a result. -/
def signs : List CMod → Str
  | [] => []
  | .sym s :: ms => s ++ signs ms
  | _ :: ms => signs ms

/-- Parameters that a signature shows: readable types, names in the characters of names. -/
def ParamShow (p : Param) : Prop :=
  (∀ u, Inside u p.2.1 → LevelShow u ∧ QualsMatch u) ∧ ∀ n, p.1 = some n → NameText n

/-- The name of a parameter, `None` for no name. -/
def shownName : Option Str → Str
  | some n => n
  | none => c%"None"

/-- What a signature tells about a function: the result without qualifiers, the name, names and types of
the parameters (`None` for no name). -/
def sigFacts (name : Str) (f : CFunc) : (Str × Str) × Str × List (PyObj × Str) :=
  ((f.ret.spec, signs f.ret.mods), name,
    f.params.map fun p => (typePy p.2.1, shownName p.1))

end Pyclib.Spec
