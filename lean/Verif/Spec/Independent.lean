import Verif.Spec.Grammar
/-
When the declarations of one header have nothing to do with those of another.
-/
namespace Pyclib.Spec

/-- Names that matter to a text: those whose values it uses, the tags of the structs, unions and enums that it mentions,
and all names that it may define. -/
structure Scope where
  vals : Str → Prop
  tags : Str → Prop
  names : Str → Prop

/-- The tables `s` and `t` hold the same as far as the text is concerned. -/
structure SameOn (S : Scope) (s t : St) : Prop where
  vals : ∀ n, S.vals n → dget (s.defs .values) n = dget (t.defs .values) n
  tags : ∀ k, k = .structs ∨ k = .unions ∨ k = .enums → ∀ n, S.tags n → dget (s.defs k) n = dget (t.defs k) n

/-- Other names have the same definitions in `s` and `s'`. -/
def Keeps (S : Scope) (s s' : St) : Prop := ∀ k n, ¬ S.names n → dget (s'.defs k) n = dget (s.defs k) n

/-- The same happens from `s` to `s'` as from `t` to `t'`: each definition is left alone in both cases or is the same
afterwards. -/
def SameEffect (s s' t t' : St) : Prop :=
  ∀ k n, (dget (s'.defs k) n = dget (s.defs k) n ∧ dget (t'.defs k) n = dget (t.defs k) n) ∨
    dget (s'.defs k) n = dget (t'.defs k) n

/-- The value of the expression `e` depends on the values of these names only. -/
def EvSame (g : Gram) (S : Scope) (e : Str) : Prop :=
  ∀ tbl tbl', (∀ n, S.vals n → dget tbl n = dget tbl' n) → g.ev tbl e = g.ev tbl' e

/-- Keywords of tags. -/
def tagWords : List Str := [c%"struct", c%"union", c%"enum"]

/-- The scope has all that matters to the tokens `ts`: all identifiers among them and, if one of them is the tag of a
struct, union or enum, the name of this type; the tags; the names given to structs, unions and enums without tag if there
are any; the names that the values of the expressions depend on. -/
structure Covers (g : Gram) (S : Scope) (ts : List Tk) : Prop where
  ident : ∀ t ∈ ts, identOk g t.w = true → S.names t.w
  tag : ∀ a kw n c, ts = a ++ kw :: n :: c → kw.w ∈ tagWords → identOk g n.w = true →
    S.tags n.w ∧ S.names (kw.w ++ ' ' :: n.w)
  anon : ∀ a kw l c, ts = a ++ kw :: l :: c → kw.w ∈ tagWords → l.w = c%"{" → ∀ i,
    S.tags (c%"anon_" ++ kw.w ++ natDigits i) ∧ S.names (c%"anon_" ++ kw.w ++ natDigits i) ∧
      S.names (kw.w ++ ' ' :: (c%"anon_" ++ kw.w ++ natDigits i))
  expr : ∀ a b c e, ts = a ++ (b ++ c) → ExprTks g b e → EvSame g S e
  minus : EvSame g S c%"-1"

end Pyclib.Spec
