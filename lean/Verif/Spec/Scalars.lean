import Verif.Spec.Types
/-
Specification of the arithmetic types of C: which words name which type (C11 6.7.2, paragraph 2, where the
words may come in any order), and which type of C each scalar class of ctypes stands for (the table of
fundamental data types in the documentation of ctypes).
-/
namespace Pyclib.Spec
open Pyclib

/-- Arithmetic types of C and its standard headers. -/
inductive CScalar where
  | bool | char | schar | uchar | wchar
  | short | ushort | int | uint | long | ulong | longlong | ulonglong
  | float | double | longdouble
  | int8 | uint8 | int16 | uint16 | int32 | uint32 | int64 | uint64 | size | ssize
  deriving DecidableEq, Repr

/-- The sets of specifiers that name a type, and the type.  `wchar` is not a name of C; headers that use it
mean `wchar_t`. -/
def cSpecifiers : List (List Str × CScalar) :=
  [([c%"bool"], .bool), ([c%"char"], .char), ([c%"signed", c%"char"], .schar), ([c%"unsigned", c%"char"], .uchar),
   ([c%"wchar_t"], .wchar), ([c%"wchar"], .wchar),
   ([c%"short"], .short), ([c%"signed", c%"short"], .short), ([c%"short", c%"int"], .short),
   ([c%"signed", c%"short", c%"int"], .short),
   ([c%"unsigned", c%"short"], .ushort), ([c%"unsigned", c%"short", c%"int"], .ushort),
   ([c%"int"], .int), ([c%"signed"], .int), ([c%"signed", c%"int"], .int),
   ([c%"unsigned"], .uint), ([c%"unsigned", c%"int"], .uint),
   ([c%"long"], .long), ([c%"signed", c%"long"], .long), ([c%"long", c%"int"], .long), ([c%"signed", c%"long", c%"int"], .long),
   ([c%"unsigned", c%"long"], .ulong), ([c%"unsigned", c%"long", c%"int"], .ulong),
   ([c%"long", c%"long"], .longlong), ([c%"signed", c%"long", c%"long"], .longlong),
   ([c%"long", c%"long", c%"int"], .longlong), ([c%"signed", c%"long", c%"long", c%"int"], .longlong),
   ([c%"unsigned", c%"long", c%"long"], .ulonglong), ([c%"unsigned", c%"long", c%"long", c%"int"], .ulonglong),
   ([c%"float"], .float), ([c%"double"], .double), ([c%"long", c%"double"], .longdouble),
   ([c%"int8_t"], .int8), ([c%"uint8_t"], .uint8), ([c%"int16_t"], .int16), ([c%"uint16_t"], .uint16),
   ([c%"int32_t"], .int32), ([c%"uint32_t"], .uint32), ([c%"int64_t"], .int64), ([c%"uint64_t"], .uint64),
   ([c%"size_t"], .size), ([c%"ssize_t"], .ssize)]

/-- The words `ws`, in any order, name the type `k`. -/
def Spells (ws : List Str) (k : CScalar) : Prop := ∃ m, (m, k) ∈ cSpecifiers ∧ ws.Perm m

/-- The C type of a scalar class of ctypes. -/
def ctypesScalar : List (Str × CScalar) :=
  [(c%"c_bool", .bool), (c%"c_char", .char), (c%"c_byte", .schar), (c%"c_ubyte", .uchar), (c%"c_wchar", .wchar),
   (c%"c_short", .short), (c%"c_ushort", .ushort), (c%"c_int", .int), (c%"c_uint", .uint), (c%"c_long", .long),
   (c%"c_ulong", .ulong), (c%"c_longlong", .longlong), (c%"c_ulonglong", .ulonglong), (c%"c_float", .float),
   (c%"c_double", .double), (c%"c_longdouble", .longdouble), (c%"c_int8", .int8), (c%"c_uint8", .uint8),
   (c%"c_int16", .int16), (c%"c_uint16", .uint16), (c%"c_int32", .int32), (c%"c_uint32", .uint32),
   (c%"c_int64", .int64), (c%"c_uint64", .uint64), (c%"c_size_t", .size), (c%"c_ssize_t", .ssize)]

end Pyclib.Spec
