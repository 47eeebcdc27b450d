import Verif.Model.Types
/-
The words of C that declarations are made of, as lists independent of the parser's tables.
-/
namespace Pyclib.Spec
open Pyclib

/-- Storage classes, with `inline`. -/
def cStorage : List Str := [c%"extern", c%"static", c%"inline"]

/-- Qualifiers, with `near` and `far` of 16 bit compilers. -/
def cQuals : List Str := [c%"const", c%"volatile", c%"restrict", c%"near", c%"far"]

/-- The words of simple types: those of C, those of `<stdint.h>` and `<stddef.h>`, `time_t` for Python 3.12 and later,
`__int64` on Windows, and the types the user added. -/
def CSimple (cfg : Cfg) (w : Str) : Prop :=
  w ∈ [c%"signed", c%"unsigned", c%"short", c%"long", c%"int", c%"char", c%"float", c%"double", c%"void", c%"bool",
    c%"wchar", c%"wchar_t", c%"size_t", c%"ssize_t", c%"int8_t", c%"int16_t", c%"int32_t", c%"int64_t", c%"uint8_t",
    c%"uint16_t", c%"uint32_t", c%"uint64_t"] ∨
  (cfg.py312 = true ∧ w = c%"time_t") ∨ (cfg.win32 = true ∧ w = c%"__int64") ∨ w ∈ cfg.extraTypes

end Pyclib.Spec
