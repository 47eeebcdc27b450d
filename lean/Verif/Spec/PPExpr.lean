import Verif.Model.PPExpr
import Verif.Spec.Macro
/-
Specification of `#if` conditions: expressions of C (integers without overflow), their value, their text
with arbitrary blanks, and the fragment on which pyclibrary agrees with C.
-/
namespace Pyclib.Spec
open Pyclib

/-- Comparisons of C. -/
inductive CCmp where
  | eq | ne | lt | gt | le | ge
  deriving DecidableEq

/-- `defined X` with `k + 1` blanks, or `defined(X)` with blanks around the parentheses. -/
inductive DForm where
  | plain (k : Nat)
  | paren (i j k : Nat)

/-- Expressions of C; parentheses are explicit. -/
inductive CE where
  | num (n : Nat)
  | id (w : Str)
  | defd (w : Str) (f : DForm)
  | par (e : CE)
  | neg (e : CE)
  | cmp (op : CCmp) (a b : CE)
  | arith (op : AOp) (a b : CE)
  | and (a b : CE)
  | or (a b : CE)

/-- Comparison of C. -/
def CCmp.holds : CCmp → Int → Int → Bool
  | .eq, a, b => a == b
  | .ne, a, b => a != b
  | .lt, a, b => a < b
  | .gt, a, b => a > b
  | .le, a, b => a ≤ b
  | .ge, a, b => a ≥ b

/-- Value in C: `val` is the value of identifiers (0 if not a macro), `d` tells what is defined. -/
def CE.value (val : Str → Nat) (d : Str → Bool) : CE → Int
  | .num n => n
  | .id w => val w
  | .defd w _ => if d w then 1 else 0
  | .par e => e.value val d
  | .neg e => if e.value val d = 0 then 1 else 0
  | .cmp op a b => if op.holds (a.value val d) (b.value val d) then 1 else 0
  | .arith .add a b => a.value val d + b.value val d
  | .arith .sub a b => a.value val d - b.value val d
  | .arith .mul a b => a.value val d * b.value val d
  | .and a b => if a.value val d ≠ 0 ∧ b.value val d ≠ 0 then 1 else 0
  | .or a b => if a.value val d ≠ 0 ∨ b.value val d ≠ 0 then 1 else 0

/-- Tokens of the text of an expression. -/
inductive CTok where
  | num (n : Nat)
  | id (w : Str)
  | defd (w : Str) (f : DForm)
  | bang | and | or
  | cmp (op : CCmp)
  | arith (op : AOp)
  | lp | rp

/-- The tokens of an expression, in order. -/
def CE.toks : CE → List CTok
  | .num n => [.num n]
  | .id w => [.id w]
  | .defd w f => [.defd w f]
  | .par e => .lp :: (e.toks ++ [.rp])
  | .neg e => .bang :: e.toks
  | .cmp op a b => a.toks ++ .cmp op :: b.toks
  | .arith op a b => a.toks ++ .arith op :: b.toks
  | .and a b => a.toks ++ .and :: b.toks
  | .or a b => a.toks ++ .or :: b.toks

/-- `n` blanks. -/
def blanks (n : Nat) : Str := List.replicate n ' '

/-- Text of a token. -/
def CTok.text : CTok → Str
  | .num n => natDigits n
  | .id w => w
  | .defd w (.plain k) => c%"defined" ++ blanks (k + 1) ++ w
  | .defd w (.paren i j k) => c%"defined" ++ blanks i ++ '(' :: (blanks j ++ w ++ blanks k ++ [')'])
  | .bang => ['!']
  | .and => c%"&&"
  | .or => c%"||"
  | .cmp .eq => c%"=="
  | .cmp .ne => c%"!="
  | .cmp .lt => c%"<"
  | .cmp .gt => c%">"
  | .cmp .le => c%"<="
  | .cmp .ge => c%">="
  | .arith .add => ['+']
  | .arith .sub => ['-']
  | .arith .mul => ['*']
  | .lp => ['(']
  | .rp => [')']

/-- Text of a sequence of tokens, each preceded by some blanks. -/
def layout (l : List (Nat × CTok)) : Str := l.flatMap fun p => blanks p.1 ++ p.2.text

/-- Precedence of an expression in the grammar of C (7: primary, 6: unary). -/
def CE.level : CE → Nat
  | .or _ _ => 0
  | .and _ _ => 1
  | .cmp .eq _ _ | .cmp .ne _ _ => 2
  | .cmp _ _ _ => 3
  | .arith .add _ _ | .arith .sub _ _ => 4
  | .arith .mul _ _ => 5
  | .neg _ => 6
  | _ => 7

/-- The grammar of C: the text of the tree is read back as the tree. -/
def CE.Grammar : CE → Prop
  | .num _ => True
  | .id w => IsIdent w ∧ w ≠ c%"defined"
  | .defd w _ => IsIdent w
  | .par e => e.Grammar
  | .neg e => 6 ≤ e.level ∧ e.Grammar
  | .cmp op a b => (CE.cmp op a b).level ≤ a.level ∧ (CE.cmp op a b).level < b.level ∧
      a.Grammar ∧ b.Grammar
  | .arith op a b => (CE.arith op a b).level ≤ a.level ∧ (CE.arith op a b).level < b.level ∧
      a.Grammar ∧ b.Grammar
  | .and a b => 1 ≤ a.level ∧ 1 < b.level ∧ a.Grammar ∧ b.Grammar
  | .or a b => 0 < b.level ∧ a.Grammar ∧ b.Grammar

/-- Always 0 or 1. -/
def CE.isBool : CE → Bool
  | .defd _ _ | .neg _ | .cmp _ _ _ => true
  | .par e => e.isBool
  | .and a b | .or a b => a.isBool && b.isBool
  | _ => false

/-- Not a conjunction or disjunction of possibly non-boolean operands. -/
def CE.exact : CE → Bool
  | .par e => e.exact
  | .and a b | .or a b => a.isBool && b.isBool
  | _ => true

/-- The fragment on which pyclibrary agrees with C: no `!=`, no chained comparisons, no `!` as a direct
operand of a comparison or an arithmetic operation, and no use of `&&`/`||` of non-boolean operands as
a number. -/
def CE.Frag : CE → Prop
  | .num _ | .id _ | .defd _ _ => True
  | .par e => e.Frag
  | .neg e => e.Frag
  | .cmp op a b => op ≠ .ne ∧ 4 ≤ a.level ∧ 4 ≤ b.level ∧ a.level ≠ 6 ∧ b.level ≠ 6 ∧
      a.exact = true ∧ b.exact = true ∧ a.Frag ∧ b.Frag
  | .arith _ a b => a.level ≠ 6 ∧ b.level ≠ 6 ∧ a.exact = true ∧ b.exact = true ∧ a.Frag ∧ b.Frag
  | .and a b | .or a b => a.Frag ∧ b.Frag

/-- Identifiers of an expression. -/
def CE.ids : CE → List Str
  | .num _ | .defd _ _ => []
  | .id w => [w]
  | .par e | .neg e => e.ids
  | .cmp _ a b | .arith _ a b | .and a b | .or a b => a.ids ++ b.ids

/-- Number constants of an expression. -/
def CE.nums : CE → List Nat
  | .num n => [n]
  | .id _ | .defd _ _ => []
  | .par e | .neg e => e.nums
  | .cmp _ a b | .arith _ a b | .and a b | .or a b => a.nums ++ b.nums

end Pyclib.Spec
