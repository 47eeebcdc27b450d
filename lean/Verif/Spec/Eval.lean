import Verif.Model.Eval
import Verif.Spec.Grammar
/-
Specification of constant expressions of C: their value over the integers (no overflow), their text with
arbitrary blanks, and the fragment on which pyclibrary agrees with C.
-/
namespace Pyclib.Spec

open Pyclib

/-- Binary operators of C on integers. -/
inductive KBin where
  | or | xor | and | shl | shr | add | sub | mul | div | mod
  | eq | ne | lt | gt | le | ge
  deriving DecidableEq

/-- Unary operators of C on integers. -/
inductive KUn where
  | plus | minus | compl
  deriving DecidableEq

/-- Constant expressions of C; parentheses are explicit.  A literal is given without its suffix and with
it. -/
inductive KE where
  | lit (v suf : Str)
  | id (w : Str)
  | par (e : KE)
  | un (o : KUn) (e : KE)
  | bin (o : KBin) (a b : KE)

/-- The value of a digit. -/
def digit : Char → Nat
  | '1' => 1 | '2' => 2 | '3' => 3 | '4' => 4 | '5' => 5 | '6' => 6 | '7' => 7 | '8' => 8 | '9' => 9
  | 'a' => 10 | 'b' => 11 | 'c' => 12 | 'd' => 13 | 'e' => 14 | 'f' => 15
  | 'A' => 10 | 'B' => 11 | 'C' => 12 | 'D' => 13 | 'E' => 14 | 'F' => 15
  | _ => 0

/-- The value of a sequence of digits, the last one first. -/
def posValue (base : Nat) : Str → Nat
  | [] => 0
  | d :: ds => digit d + base * posValue base ds

/-- The value of an integer literal without suffix (ISO C 6.4.4.1): hexadecimal, octal or decimal. -/
def litValue (v : Str) : Nat :=
  match v with
  | '0' :: 'x' :: ds => posValue 16 ds.reverse
  | '0' :: 'X' :: ds => posValue 16 ds.reverse
  | '0' :: ds => posValue 8 ds.reverse
  | ds => posValue 10 ds.reverse

/-- The value of a binary operation in C; `none` where the behaviour is undefined. -/
def KBin.value : KBin → Int → Int → Option Int
  | .or, a, b => some (a.lor b)
  | .xor, a, b => some (a.xor b)
  | .and, a, b => some (a.land b)
  | .shl, a, b => if b < 0 then none else some (a * 2 ^ b.toNat)
  | .shr, a, b => if b < 0 then none else some (a >>> b.toNat)
  | .add, a, b => some (a + b)
  | .sub, a, b => some (a - b)
  | .mul, a, b => some (a * b)
  | .div, a, b => if b = 0 then none else some (a.tdiv b)
  | .mod, a, b => if b = 0 then none else some (a.tmod b)
  | .eq, a, b => some (if a = b then 1 else 0)
  | .ne, a, b => some (if a = b then 0 else 1)
  | .lt, a, b => some (if a < b then 1 else 0)
  | .gt, a, b => some (if b < a then 1 else 0)
  | .le, a, b => some (if a ≤ b then 1 else 0)
  | .ge, a, b => some (if b ≤ a then 1 else 0)

/-- The value of a unary operation in C. -/
def KUn.value : KUn → Int → Int
  | .plus, a => a
  | .minus, a => -a
  | .compl, a => a.not

/-- The value of an expression in C, given the values of the names. -/
def KE.value (env : Str → Option Int) : KE → Option Int
  | .lit v _ => some (litValue v)
  | .id w => env w
  | .par e => e.value env
  | .un o e => (e.value env).map o.value
  | .bin o a b => (a.value env).bind fun x => (b.value env).bind fun y => o.value x y

/-- The text of an operator. -/
def KBin.text : KBin → Str
  | .or => c%"|" | .xor => c%"^" | .and => c%"&" | .shl => c%"<<" | .shr => c%">>" | .add => c%"+"
  | .sub => c%"-" | .mul => c%"*" | .div => c%"/" | .mod => c%"%" | .eq => c%"==" | .ne => c%"!="
  | .lt => c%"<" | .gt => c%">" | .le => c%"<=" | .ge => c%">="

/-- The text of an operator. -/
def KUn.text : KUn → Str
  | .plus => c%"+" | .minus => c%"-" | .compl => c%"~"

/-- The tokens of an expression. -/
def KE.toks : KE → List Str
  | .lit v suf => [v ++ suf]
  | .id w => [w]
  | .par e => c%"(" :: (e.toks ++ [c%")"])
  | .un o e => o.text :: e.toks
  | .bin o a b => a.toks ++ o.text :: b.toks

/-- The precedence of a binary operator in C, from the weakest. -/
def KBin.level : KBin → Nat
  | .or => 0
  | .xor => 1
  | .and => 2
  | .eq | .ne => 3
  | .lt | .gt | .le | .ge => 4
  | .shl | .shr => 5
  | .add | .sub => 6
  | .mul | .div | .mod => 7

/-- The precedence of an expression in C (8: with a unary operator, 9: primary). -/
def KE.level : KE → Nat
  | .bin o _ _ => o.level
  | .un _ _ => 8
  | _ => 9

/-- The grammar of C: the tokens of the tree are read back as the tree. -/
def KE.Grammar : KE → Prop
  | .lit _ _ | .id _ => True
  | .par e => e.Grammar
  | .un _ e => 8 ≤ e.level ∧ e.Grammar
  | .bin o a b => o.level ≤ a.level ∧ o.level < b.level ∧ a.Grammar ∧ b.Grammar

/-- A decimal literal other than an octal one, or a hexadecimal one. -/
def litOk (v : Str) : Prop :=
  (v ≠ [] ∧ v.all Char.isDigit = true ∧ (v.head? = some '0' → v = c%"0")) ∨
    ∃ x ds, v = '0' :: x :: ds ∧ (x = 'x' ∨ x = 'X') ∧ ds ≠ [] ∧ ds.all isHexC = true

/-- No digit is followed by one of the letters `U L e E x X`. -/
def nameOk : Str → Bool
  | a :: b :: w => !(a.isDigit && decide (b ∈ ['U', 'L', 'e', 'E', 'x', 'X'])) && nameOk (b :: w)
  | _ => true

/-- Names and literals that are evaluated as in C (an extra type may look like a literal), no name alone in
parentheses. -/
def KE.Ok (g : Gram) : KE → Prop
  | .lit v suf => litOk v ∧ suf.all isUL = true ∧ v ++ suf ∉ keywords g.cfg ∧ v ∉ keywords g.cfg
  | .id w => identOk g w = true ∧ nameOk w = true ∧ w ∉ pyKeywords
  | .par e => e.Ok g ∧ ∀ w, e ≠ .id w
  | .un _ e => e.Ok g
  | .bin _ a b => a.Ok g ∧ b.Ok g

/-- A comparison, not in parentheses. -/
def KE.isCmp : KE → Bool
  | .bin o _ _ => decide (o ∈ [.eq, .ne, .lt, .gt, .le, .ge])
  | _ => false

/-- No division, no remainder of negative numbers, and parentheses around comparisons that are operands of
comparisons or of `| ^ &`. -/
def KE.Frag (env : Str → Option Int) : KE → Prop
  | .lit _ _ | .id _ => True
  | .par e | .un _ e => e.Frag env
  | .bin o a b => o ≠ .div ∧ a.Frag env ∧ b.Frag env ∧
      (o = .mod → (∀ x, a.value env = some x → 0 ≤ x) ∧ (∀ y, b.value env = some y → 0 ≤ y)) ∧
      (o ∈ [.or, .xor, .and, .eq, .ne, .lt, .gt, .le, .ge] → a.isCmp = false ∧ b.isCmp = false)

/-- The integers in a table of values. -/
def intsOf (tbl : Dict Str DefVal) (w : Str) : Option Int :=
  match dget tbl w with
  | some (.value (.int i)) => some i
  | _ => none

/-- A text of the given tokens on one line, with any blanks, at least some where tokens would run
together. -/
def TextOf (text : Str) (ts : List Str) : Prop :=
  (∃ tks : List Tk, tks.map Tk.w = ts ∧ Lay ⟨[], fun _ => none⟩ ' ' text tks) ∧
    ∀ c ∈ text, c ≠ '\n' ∧ c ≠ '\r'

end Pyclib.Spec
