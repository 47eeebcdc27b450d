import Verif.Spec.Types
import Verif.Model.Grammar
/-
Specification of the definition tables as a data structure: what a user (and the code of the backends) may
rely on when reading `CParser.defs`, whatever the headers were.  Independent of the parser; only the data
types and dictionary lookup of the model are used.
-/
namespace Pyclib.Spec
open Pyclib

/-- The C keywords and type names the parser knows (`keywords`, c_parser.py:1860-1870). -/
def Keyword (cfg : Cfg) (w : Str) : Prop :=
  w ∈ [c%"struct", c%"enum", c%"union", c%"__stdcall", c%"__cdecl", c%"const", c%"volatile", c%"restrict", c%"near",
    c%"far"] ∨ FundWord cfg w

/-- An identifier that is not a keyword. -/
def IsName (cfg : Cfg) (n : Str) : Prop :=
  (∃ c r, n = c :: r ∧ (c.isAlpha = true ∨ c = '_')) ∧ (∀ c ∈ n, c.isAlphanum = true ∨ c = '_' ∨ c = '$') ∧
  ¬ Keyword cfg n

/-- The names a type can start with: fundamental words, an identifier, a tag that is defined, or what stands
for a struct, union or enum that could not be processed (`junk`). -/
inductive TypeName (cfg : Cfg) (junk : Str → Str) (s : Store DefVal) : Str → Prop
  | fund (ws : List Str) (hne : ws ≠ []) (h : ∀ w ∈ ws, FundWord cfg w) : TypeName cfg junk s (joinC ' ' ws)
  | ident (n : Str) (h : IsName cfg n) : TypeName cfg junk s n
  | comp (u : Bool) (tag : Str) (h : dhas (s.defs (compKind u)) tag = true) :
      TypeName cfg junk s (compWord u ++ ' ' :: tag)
  | enum (tag : Str) (h : dhas (s.defs .enums) tag = true) : TypeName cfg junk s (c%"enum " ++ tag)
  | failed (r : Str) : TypeName cfg junk s (junk r)

/-- A modifier is a pointer, a reference, a calling convention, one array length, or a parameter list. -/
def ModWf : CMod → Prop
  | .sym s => s = c%"*" ∨ s = c%"&" ∨ s = c%"__cdecl" ∨ s = c%"__stdcall"
  | .arr l => ∃ n, l = [n]
  | .fn _ => True

/-- One level of a type: its name, one qualifier group per modifier and one for the base. -/
structure LevelWf (N : Str → Prop) (t : CType) : Prop where
  name : N t.spec
  quals : QualsMatch t
  base : ∀ q ∈ t.quals.head?, q ≠ none
  mods : ∀ m ∈ t.mods, ModWf m

/-- A well-formed type, with all parameter types inside. -/
def TypeWf (N : Str → Prop) (t : CType) : Prop := ∀ u, Inside u t → LevelWf N u

/-- A well-formed struct or union member.  A member without a name and without declarator has no modifiers. -/
def MemberWf (cfg : Cfg) (N : Str → Prop) (m : Member) : Prop :=
  (∃ n, m.name = some n ∧ IsName cfg n ∧ TypeWf N m.type) ∨
  (m.name = none ∧ m.type.mods = [] ∧ m.type.quals = [some []])

section
variable (cfg : Cfg) (junk : Str → Str) (s : Store DefVal)

/-- The entry under `types` for a tag. -/
def TagEntry (word tag : Str) : Prop :=
  dget (s.defs .types) (word ++ ' ' :: tag) = some (.type ⟨word, [.sym tag], [some [], some []]⟩)

/-- A struct or union: it has an entry under `types`, and well-formed members. -/
def CompoundWf (u : Bool) (tag : Str) (v : DefVal) : Prop :=
  TagEntry s (compWord u) tag ∧
    ∃ ms pack, v = .compound ms pack ∧ ∀ m ∈ ms, MemberWf cfg (TypeName cfg junk s) m

/-- The value of an enumerator: an integer or a float (which C does not have, but `A = 6/2` gives). -/
def IsNumber (v : PVal) : Prop := (∃ k, v = .int k) ∨ ∃ q, v = .flt q

/-- An entry of one of the tables holds what the table is for, every type in it is well-formed and mentions
no struct, union or enum that is not defined, and tags and their entries under `types` go together. -/
def EntryWf : Kind → Str → DefVal → Prop
  | .types, n, v =>
    (IsName cfg n ∧ ∃ t, v = .type t ∧ TypeWf (TypeName cfg junk s) t) ∨
    (∃ u tag, n = compWord u ++ ' ' :: tag ∧ dhas (s.defs (compKind u)) tag = true) ∨
    (∃ tag, n = c%"enum " ++ tag ∧ dhas (s.defs .enums) tag = true)
  | .structs, tag, v => CompoundWf cfg junk s false tag v
  | .unions, tag, v => CompoundWf cfg junk s true tag v
  | .enums, tag, v => TagEntry s c%"enum" tag ∧
    ∃ d, v = .enum d ∧ ∀ n i, dget d n = some i → IsNumber i ∧ dhas (s.defs .values) n = true
  | .variables, n, v => IsName cfg n ∧ dhas (s.defs .values) n = true ∧
    ∃ val t, v = .var val t ∧ TypeWf (TypeName cfg junk s) t ∧ ∀ ps, t.mods.getLast? ≠ some (.fn ps)
  | .functions, n, v => IsName cfg n ∧
    ∃ r ps qs, v = .func (.func r ps qs) ∧ TypeWf (TypeName cfg junk s) r ∧
      (∀ p ∈ ps, TypeWf (TypeName cfg junk s) p.2.1) ∧ qs.length = 2
  | .values, _, v => ∃ i, v = .value i
  | .macros, _, v => ∃ t, v = .macro t
  | .fnmacros, _, v => ∃ f, v = .fnmacro f

/-- The definition tables are well-formed. -/
def TablesWf : Prop := ∀ k n v, dget (s.defs k) n = some v → EntryWf cfg junk s k n v

end

end Pyclib.Spec
