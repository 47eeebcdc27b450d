import Verif.Spec.File
import Verif.Spec.PPExpr
/-! Headers that differ in the way their conditionals are written (C100). -/
namespace Pyclib.Spec

/-- The condition of a line is this expression of C; only what is defined matters for it. -/
inductive Cond.Means : Cond → CE → Prop
  | ifdef (x : Str) (f : DForm) : Means (.ifdef x) (.defd x f)
  | ifndef (x : Str) (f : DForm) : Means (.ifndef x) (.neg (.defd x f))
  | expr (e : CE) (l : List (Nat × CTok)) (k : Nat) : e.Frag → e.Grammar → e.ids = [] → l.map (·.2) = e.toks →
      Means (.expr (layout l ++ blanks k)) e

/-- Does the expression hold if just these names are defined? -/
def CE.true (e : CE) (d : Str → Bool) : Prop := e.value (fun _ => 0) d ≠ 0

/-- The two conditions are the same, or they hold for the same defined names. -/
def CondEq (c c' : Cond) : Prop :=
  c = c' ∨ ∃ e e', c.Means e ∧ c'.Means e' ∧ ∀ d, e.true d ↔ e'.true d

/-- The one condition holds where the other does not. -/
def CondOpp (c c' : Cond) : Prop := ∃ e e', c.Means e ∧ c'.Means e' ∧ ∀ d, e.true d ↔ ¬ e'.true d

/-- The third condition holds where the other two do. -/
def CondAnd (c1 c2 c : Cond) : Prop :=
  ∃ e1 e2 e, c1.Means e1 ∧ c2.Means e2 ∧ c.Means e ∧ ∀ d, e.true d ↔ e1.true d ∧ e2.true d

mutual
/-- The same lines under conditionals that are written otherwise. -/
inductive BlockAlike : SBlock → SBlock → Prop
  | nil : BlockAlike .nil .nil
  | leaf (t t' : Str) (l : Line) (rest rest' : SBlock) : BlockAlike rest rest' → BlockAlike (.leaf t l rest) (.leaf t' l rest')
  | cond (t t' : Str) (c c' : Cond) (b b' : SBlock) (k k' : SChain) (rest rest' : SBlock) : CondEq c c' → BlockAlike b b' → ChainAlike k k' →
      BlockAlike rest rest' → BlockAlike (.cond t c b k rest) (.cond t' c' b' k' rest')
  /-- The branches the other way round. -/
  | swap (t t' t1 t1' t2 t2' : Str) (c c' : Cond) (a a' b b' rest rest' : SBlock) : CondOpp c c' → BlockAlike a a' → BlockAlike b b' →
      BlockAlike rest rest' → BlockAlike (.cond t c a (.els t1 b t2) rest) (.cond t' c' b' (.els t1' a' t2') rest')
  /-- Two conditionals in one. -/
  | both (t1 t2 t3 t4 t t' : Str) (c1 c2 c : Cond) (b b' rest rest' : SBlock) : CondAnd c1 c2 c → BlockAlike b b' → BlockAlike rest rest' →
      BlockAlike (.cond t1 c1 (.cond t2 c2 b (.endif t3) .nil) (.endif t4) rest) (.cond t c b' (.endif t') rest')
/-- The same for chains. -/
inductive ChainAlike : SChain → SChain → Prop
  | endif (t t' : Str) : ChainAlike (.endif t) (.endif t')
  | els (t t' t1 t1' : Str) (b b' : SBlock) : BlockAlike b b' → ChainAlike (.els t b t1) (.els t' b' t1')
  | elif (t t' e e' : Str) (b b' : SBlock) (k k' : SChain) : CondEq (.expr e) (.expr e') → BlockAlike b b' → ChainAlike k k' →
      ChainAlike (.elif t e b k) (.elif t' e' b' k')
  /-- `#elif` as a conditional in an `#else`. -/
  | split (t e t1 t2 t3 : Str) (c : Cond) (b b' : SBlock) (k k' : SChain) : CondEq (.expr e) c → BlockAlike b b' → ChainAlike k k' →
      ChainAlike (.elif t e b k) (.els t1 (.cond t2 c b' k' .nil) t3)
  /-- An `#else` with nothing in it. -/
  | empty (t t1 t2 : Str) : ChainAlike (.endif t) (.els t1 .nil t2)
end

end Pyclib.Spec
