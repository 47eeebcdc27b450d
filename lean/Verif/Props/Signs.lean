import Verif.Spec.Scalars
import Verif.Props.Fill
/-! C89: the signs of all integer types that the ctypes backend knows. -/
namespace Pyclib
open Spec

/-- The sign of a C integer type; none for types that are not integers (and for characters and bool, whose Python values are not
integers). -/
def Spec.scalarSign : CScalar → Option Bool
  | .schar | .short | .int | .long | .longlong | .int8 | .int16 | .int32 | .int64 | .ssize => some true
  | .uchar | .ushort | .uint | .ulong | .ulonglong | .uint8 | .uint16 | .uint32 | .uint64 | .size => some false
  | .bool | .char | .wchar | .float | .double | .longdouble => none

/-- The sign of a type of the table, by the C type its class has. -/
def Spec.tableSign (b : Str) : Option Bool := ((dget ctypesTable b).bind (dget ctypesScalar)).bind scalarSign

/-- C89: every scalar class of ctypes is an integer class exactly if its C type is an integer type, and with the same sign. -/
theorem C89_signs {p : Str} {k : CScalar} (h : (p, k) ∈ ctypesScalar) : dget intClasses p = scalarSign k := by
  have : ∀ q ∈ ctypesScalar, dget intClasses q.1 = scalarSign q.2 := by decide +kernel
  exact this _ h

/-- C89: so that the condition on signs in C89, C90 and C91 holds for all types of the table. -/
theorem C89_signs_table : SignMatch ctypesTable tableSign := by
  intro b sg p h hp
  simp only [tableSign, hp, Option.bind_some] at h
  obtain ⟨k, h1, h2⟩ := Option.bind_eq_some_iff.1 h
  rw [C89_signs (dget_some_mem h1), h2]

/-- Types of all signs. -/
theorem C89_signs_example : tableSign c%"uint8_t" = some false ∧ tableSign c%"long int" = some true ∧
    tableSign c%"double" = none ∧ tableSign c%"no such type" = none := by decide +kernel

end Pyclib
