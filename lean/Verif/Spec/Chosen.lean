import Verif.Spec.File
/-! The lines of a header that its conditionals choose (C99). -/
namespace Pyclib.Spec

mutual
/-- The lines chosen, as they stand in the text, each with its meaning. -/
def SBlock.chosen {E : Type} (sem : CSem E) (env : E) : SBlock → List (Str × Line)
  | .nil => []
  | .leaf t l rest => (t, l) :: rest.chosen sem (lineEnv sem.toPPSem env l)
  | .cond _ c body chain rest =>
    if c.holds sem env then body.chosen sem env ++ rest.chosen sem (body.run sem env).1
    else chain.chosen sem env ++ rest.chosen sem (chain.run sem env).1
/-- The lines chosen in a chain none of whose earlier conditions was true. -/
def SChain.chosen {E : Type} (sem : CSem E) (env : E) : SChain → List (Str × Line)
  | .endif _ => []
  | .els _ body _ => body.chosen sem env
  | .elif _ e body tail => if sem.cond env e then body.chosen sem env else tail.chosen sem env
end

/-- A header without conditionals. -/
def SBlock.flat : List (Str × Line) → SBlock
  | [] => .nil
  | (t, l) :: ls => .leaf t l (flat ls)

/-- No pragma is selected right after a line of text, unless this is blank. -/
def PragmaApart {E : Type} (sem : PPSem E) (es : List (Entry E)) : Prop :=
  ∀ a env t env' r b, es = a ++ .sel env (.code t) :: .sel env' (.pragma r) :: b → ∀ e, (sem.expand e t).all isWhite = true

end Pyclib.Spec
