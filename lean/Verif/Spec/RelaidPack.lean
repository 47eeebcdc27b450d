import Verif.Spec.Relaid
/-
Specification: two layouts of a header file with `#pragma pack`.
-/
namespace Pyclib.Spec
open Pyclib

/-- A pragma. -/
def IsPragma (t : Str) : Prop := ∃ rest, Directive t c%"pragma" rest

/-- The parts begin with a pragma. -/
def StartsPragma : List Part → Prop
  | .dir t :: _ => IsPragma t
  | _ => False

/-- The last of the lines is empty after the replacement of macros. -/
def EndsBlank {E : Type} (sem : PPSem E) (P : E → Prop) (ls : List Str) : Prop :=
  ∀ l ∈ ls.getLast?, ∀ e, P e → (sem.expand e l).all isWhite = true

/-- Parts of two files as in C92, with pragmas of any kind; in front of a pragma the text ends with an empty line. -/
def PackedOk {E : Type} (sem : PPSem E) (P : E → Prop) : List Part → Prop
  | [] => True
  | .dir t :: ps => (IsDir sem P t ∨ IsPragma t) ∧ PackedOk sem P ps
  | .code ls ls' :: ps => Part.Ok sem P (.code ls ls') ∧ (∀ e, P e → ∀ l ∈ ls ++ ls', '\n' ∉ sem.expand e l) ∧
      (StartsPragma ps → EndsBlank sem P ls ∧ EndsBlank sem P ls') ∧ PackedOk sem P ps

end Pyclib.Spec
