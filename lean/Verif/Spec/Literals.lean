import Verif.Spec.Eval
/-
String and floating literals of C (ISO C 6.4.5, 6.4.4.2).
-/
namespace Pyclib.Spec

/-- The text of a string literal between the quotes, without escapes and control characters. -/
def StrBody (b : Str) : Prop := ∀ c ∈ b, ' ' ≤ c ∧ c ≠ '"' ∧ c ≠ '\\'

/-- A decimal floating constant without suffix: digits in front of the point, the point and the digits after
it, the exponent (its letter, its sign, its digits). -/
structure DecFloat where
  whole : Str
  frac : Option Str
  expo : Option (Char × Option Bool × Str)

/-- The digits after the point. -/
def DecFloat.digits (f : DecFloat) : Str := f.frac.getD []

/-- A sign: minus or plus. -/
def signText (s : Option Bool) : Str :=
  match s with
  | none => []
  | some true => ['-']
  | some false => ['+']

/-- The text of a floating constant. -/
def DecFloat.text (f : DecFloat) : Str :=
  f.whole ++ (match f.frac with | none => [] | some ds => '.' :: ds) ++
    match f.expo with | none => [] | some (c, s, ds) => c :: (signText s ++ ds)

/-- Digits where digits belong, at least one of them, and a point or an exponent. -/
def DecFloat.Ok (f : DecFloat) : Prop :=
  f.whole.all Char.isDigit = true ∧ f.digits.all Char.isDigit = true ∧ f.whole ++ f.digits ≠ [] ∧
    (f.frac.isSome = true ∨ f.expo.isSome = true) ∧
    ∀ c s ds, f.expo = some (c, s, ds) → (c = 'e' ∨ c = 'E') ∧ ds ≠ [] ∧ ds.all Char.isDigit = true

/-- The exponent. -/
def DecFloat.power (f : DecFloat) : Int :=
  match f.expo with
  | none => 0
  | some (_, some true, ds) => -(posValue 10 ds.reverse : Int)
  | some (_, _, ds) => posValue 10 ds.reverse

/-- The number: the digits in front of the point and those after it as a fraction, times a power of ten. -/
def DecFloat.value (f : DecFloat) : Rat :=
  ((posValue 10 f.whole.reverse : Rat) + (posValue 10 f.digits.reverse : Rat) / 10 ^ f.digits.length) * 10 ^ f.power

end Pyclib.Spec
