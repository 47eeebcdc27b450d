import Verif.Props.Classes
/-
The model run on the headers of the project's own test suite (/repo/tests/headers), compared with what
/repo/tests/test_parser.py and /repo/tests/backends/test_ctypes.py expect of the code.  These are tests of
the model, not properties: each theorem is an evaluation on one text by the kernel.

The setting is the one in which pytest runs test_parser.py: test_init.py comes first and its last test is
`auto_init({"new_type": int}, ["__modifier"], "win32")` (test_init.py:38-39).  Arithmetic with floats
and strings with escapes are left to the parameter `Setup.py`, which here answers `None`, so `x1` and `str5`
are `.none` below.
-/
namespace Pyclib

/-- The setting of test_parser.py (test_init.py:38-39, init.py:47-81). -/
def confSetup : Setup := ⟨⟨true, false, [c%"new_type", c%"__int64"]⟩,
  [c%"__modifier", c%"__based", c%"__declspec", c%"__fastcall", c%"__restrict", c%"__sptr", c%"__uptr", c%"__w64",
    c%"__unaligned", c%"__nullterminated"], fun _ => c%"<junk>", fun _ _ => .none, fun _ _ => none, fun _ => none⟩

/-- What `process_all` records for one header. -/
def confStore (text : Str) : Store DefVal :=
  match processFile confSetup Store.empty c%"x.h" text with
  | .ok (s, _) => s
  | .error _ => Store.empty

/-- /repo/tests/headers/enums.h. -/
def confEnumsText : Str := c%"/* Test header for parsing enumerations. */\n\n#define VALUE 128\n\nenum enum_name\n{\n    enum1= (VALUE | 1),\n    enum2=6,\n    enum3,\n    enum4,\n}  enum_inst;\n\n\nenum {\n    x = 0,\n    y\n} no_name_enum_inst;\n\n\ntypedef enum\n{\n    typedef_enum1 = 1,\n    typedef_enum2\n} no_name_enum_typeddef;\n\nvoid function_taking_enum(enum enum_name e);\n"

def confEnums : Store DefVal := confStore confEnumsText

theorem confEnums_types : confEnums.defs .types =
    [(c%"enum enum_name", .type (ctTy c%"enum" [.sym c%"enum_name"])),
    (c%"enum anon_enum0", .type (ctTy c%"enum" [.sym c%"anon_enum0"])),
    (c%"enum anon_enum1", .type (ctTy c%"enum" [.sym c%"anon_enum1"])),
    (c%"no_name_enum_typeddef", .type (ctTy c%"enum anon_enum1" []))] :=
  eqTable_ok (by decide +kernel)

theorem confEnums_variables : confEnums.defs .«variables» =
    [(c%"enum_inst", .var .none (ctTy c%"enum enum_name" [])),
    (c%"no_name_enum_inst", .var .none (ctTy c%"enum anon_enum0" []))] :=
  eqTable_ok (by decide +kernel)

theorem confEnums_enums : confEnums.defs .enums =
    [(c%"enum_name", .enum [(c%"enum1", .int 129), (c%"enum2", .int 6), (c%"enum3", .int 7), (c%"enum4", .int 8)]),
    (c%"anon_enum0", .enum [(c%"x", .int 0), (c%"y", .int 1)]),
    (c%"anon_enum1", .enum [(c%"typedef_enum1", .int 1), (c%"typedef_enum2", .int 2)])] :=
  eqTable_ok (by decide +kernel)

theorem confEnums_values : confEnums.defs .values =
    [(c%"VALUE", .value (.int 128)),
    (c%"enum1", .value (.int 129)),
    (c%"enum2", .value (.int 6)),
    (c%"enum3", .value (.int 7)),
    (c%"enum4", .value (.int 8)),
    (c%"enum_inst", .value .none),
    (c%"x", .value (.int 0)),
    (c%"y", .value (.int 1)),
    (c%"no_name_enum_inst", .value .none),
    (c%"typedef_enum1", .value (.int 1)),
    (c%"typedef_enum2", .value (.int 2))] :=
  eqTable_ok (by decide +kernel)

/-- /repo/tests/headers/functions.h. -/
def confFunctionsText : Str := c%"/* Header testing function definitions parsing. */\n\n//Defining a standard function.\nvoid f(int, int);\n\n// Defining a function with its implementation following\ninline int g(char *ch, char **str)\n{\n     JUNK\n     switch (str){\n        case 'r': return 0;\n     }\n     int localVariable = 1;\n}\n\n// Defining a function pointer.\nint(*fnPtr)(char, float);\n\n\n// Adding dllexport and stdcall annotation to a function.\nint __declspec(dllexport) __stdcall function1();\n\n#define EXPORT(x) x __declspec(dllexport)\n\nEXPORT(int) function2();\n\nextern int externFunc(void);\n\n//define typequals in abstract typedef\nint typeQualedFunc(int volatile * const *);\n"

def confFunctions : Store DefVal := confStore confFunctionsText

theorem confFunctions_functions : confFunctions.defs .functions =
    [(c%"f", .func (.func (ctTy c%"void" []) [(none, ctTy c%"int" [], none), (none, ctTy c%"int" [], none)] [some [], some []])),
    (c%"g", .func (.func (ctTy c%"int" []) [(some c%"ch", ctTy c%"char" [ctPtr], none), (some c%"str", ctTy c%"char" [ctPtr, ctPtr], none)] [some [], some []])),
    (c%"function1", .func (.func ⟨c%"int", [.sym c%"__stdcall"], [some [], none]⟩ [] [some [], some []])),
    (c%"function2", .func (.func (ctTy c%"int" []) [] [some [], some []])),
    (c%"externFunc", .func (.func (ctTy c%"int" []) [(none, ctTy c%"void" [], none)] [some [], some []])),
    (c%"typeQualedFunc", .func (.func (ctTy c%"int" []) [(none, ⟨c%"int", [ctPtr, ctPtr], [some [c%"volatile"], some [c%"const"], some []]⟩, none)] [some [], some []]))] :=
  eqTable_ok (by decide +kernel)

theorem confFunctions_variables : confFunctions.defs .«variables» =
    [(c%"fnPtr", .var .none (ctTy c%"int" [.fn [(none, ctTy c%"char" [], none), (none, ctTy c%"float" [], none)], ctPtr]))] :=
  eqTable_ok (by decide +kernel)

/-- /repo/tests/headers/structs.h. -/
def confStructsText : Str := c%"/* Test header for parsing struct. */\n\ntypedef int type_int;\ntypedef type_int type_type_int;\n\n// Test creating a structure using only base types.\n// Test for default values, array handling and bit length specifications.\nstruct struct_name\n{\n  int x = 1;\n  type_type_int y:2;\n  char str[10]; /* commented brace } */\n} struct_inst;\n\n\n// Test creating a structure using only base types.\n// Test for default values, array handling and bit length specifications.\nstruct struct_arr\n{\n  char str[10][20]; /* commented brace } */\n} struct_arr;\n\n// Test creating a pointer type from a structure.\ntypedef struct struct_name *struct_name_ptr;\n\ntypedef struct {\n    int x;\n    int y;\n} *struct_name2_ptr;\n\n// Test declaring a recursive structure.\nstruct recursive_struct {\n    struct recursive_struct *next;\n};\n\n// Test declaring near and far pointers.\ntypedef struct tagWNDCLASSEXA {\n    int         cbClsExtra;\n    int         cbWndExtra;\n} WNDCLASSEXA, *PWNDCLASSEXA, near *NPWNDCLASSEXA, far *LPWNDCLASSEXA;\n\n// Test altering the packing of a structure.\n#pragma pack(16)\nstruct struct_name_p\n{\n  int x; type_type_int y;\n  char str[10] = \"brace }  \\0\"; /* commented brace } */\n};\n\n// Test a nested structure\n\ntypedef enum root_nested_enum\n{\n  NESTED_STRUCT_ENUM_0,\n  NESTED_STRUCT_ENUM_1,\n  NESTED_STRUCT_ENUM_2\n} root_nested_enum_type;\n\nstruct root_nested_structure\n{\n  struct leaf1_nested_structure{\n    char x;\n  } x[NESTED_STRUCT_ENUM_2];\n  root_nested_enum_type y;\n  struct leaf2_nested_structure{\n    char x;        \n  } z;\n};"

def confStructs : Store DefVal := confStore confStructsText

theorem confStructs_types : confStructs.defs .types =
    [(c%"type_int", .type (ctTy c%"int" [])),
    (c%"type_type_int", .type (ctTy c%"type_int" [])),
    (c%"struct struct_name", .type (ctTy c%"struct" [.sym c%"struct_name"])),
    (c%"struct struct_arr", .type (ctTy c%"struct" [.sym c%"struct_arr"])),
    (c%"struct_name_ptr", .type (ctTy c%"struct struct_name" [ctPtr])),
    (c%"struct anon_struct0", .type (ctTy c%"struct" [.sym c%"anon_struct0"])),
    (c%"struct_name2_ptr", .type (ctTy c%"struct anon_struct0" [ctPtr])),
    (c%"struct recursive_struct", .type (ctTy c%"struct" [.sym c%"recursive_struct"])),
    (c%"struct tagWNDCLASSEXA", .type (ctTy c%"struct" [.sym c%"tagWNDCLASSEXA"])),
    (c%"WNDCLASSEXA", .type (ctTy c%"struct tagWNDCLASSEXA" [])),
    (c%"PWNDCLASSEXA", .type (ctTy c%"struct tagWNDCLASSEXA" [ctPtr])),
    (c%"NPWNDCLASSEXA", .type ⟨c%"struct tagWNDCLASSEXA", [ctPtr], [some [c%"near"], some []]⟩),
    (c%"LPWNDCLASSEXA", .type ⟨c%"struct tagWNDCLASSEXA", [ctPtr], [some [c%"far"], some []]⟩),
    (c%"struct struct_name_p", .type (ctTy c%"struct" [.sym c%"struct_name_p"])),
    (c%"enum root_nested_enum", .type (ctTy c%"enum" [.sym c%"root_nested_enum"])),
    (c%"root_nested_enum_type", .type (ctTy c%"enum root_nested_enum" [])),
    (c%"struct leaf1_nested_structure", .type (ctTy c%"struct" [.sym c%"leaf1_nested_structure"])),
    (c%"struct leaf2_nested_structure", .type (ctTy c%"struct" [.sym c%"leaf2_nested_structure"])),
    (c%"struct root_nested_structure", .type (ctTy c%"struct" [.sym c%"root_nested_structure"]))] :=
  eqTable_ok (by decide +kernel)

theorem confStructs_structs : confStructs.defs .structs =
    [(c%"struct_name", .compound [⟨some c%"x", ctTy c%"int" [], .int 1, none⟩, ⟨some c%"y", ctTy c%"type_type_int" [], .none, some 2⟩, ⟨some c%"str", ctTy c%"char" [.arr [some 10]], .none, none⟩] none),
    (c%"struct_arr", .compound [⟨some c%"str", ctTy c%"char" [.arr [some 10], .arr [some 20]], .none, none⟩] none),
    (c%"anon_struct0", .compound [⟨some c%"x", ctTy c%"int" [], .none, none⟩, ⟨some c%"y", ctTy c%"int" [], .none, none⟩] none),
    (c%"recursive_struct", .compound [⟨some c%"next", ctTy c%"struct recursive_struct" [ctPtr], .none, none⟩] none),
    (c%"tagWNDCLASSEXA", .compound [⟨some c%"cbClsExtra", ctTy c%"int" [], .none, none⟩, ⟨some c%"cbWndExtra", ctTy c%"int" [], .none, none⟩] none),
    (c%"struct_name_p", .compound [⟨some c%"x", ctTy c%"int" [], .none, none⟩, ⟨some c%"y", ctTy c%"type_type_int" [], .none, none⟩, ⟨some c%"str", ctTy c%"char" [.arr [some 10]], .none, none⟩] (some 16)),
    (c%"leaf1_nested_structure", .compound [⟨some c%"x", ctTy c%"char" [], .none, none⟩] (some 16)),
    (c%"leaf2_nested_structure", .compound [⟨some c%"x", ctTy c%"char" [], .none, none⟩] (some 16)),
    (c%"root_nested_structure", .compound [⟨some c%"x", ctTy c%"struct leaf1_nested_structure" [.arr [some 2]], .none, none⟩, ⟨some c%"y", ctTy c%"root_nested_enum_type" [], .none, none⟩, ⟨some c%"z", ctTy c%"struct leaf2_nested_structure" [], .none, none⟩] (some 16))] :=
  eqTable_ok (by decide +kernel)

theorem confStructs_enums : confStructs.defs .enums =
    [(c%"root_nested_enum", .enum [(c%"NESTED_STRUCT_ENUM_0", .int 0), (c%"NESTED_STRUCT_ENUM_1", .int 1), (c%"NESTED_STRUCT_ENUM_2", .int 2)])] :=
  eqTable_ok (by decide +kernel)

/-- /repo/tests/headers/typedefs.h. -/
def confTypedefsText : Str := c%"/* Header file to test the parsing of typedef based on simple type, enum,\nstruct and union will be treated later. */\n\n// Standard type defintion\ntypedef char **typeChar;\ntypedef int typeInt, *typeIntPtr, typeIntArr[10], typeIntDArr[5][6];\ntypedef typeInt typeTypeInt;\ntypedef unsigned long ULONG;\n\n// Typedef using type anotations.\ntypedef void const *voidpc;\ntypedef char far charf;\n\n// test using newly defined type.\ntypeTypeInt *ttip5[5];\n\n// Handling of undefined types.\ntypedef someType SomeOtherType;\nundefined x;\n\n// Recursive type definitions\ntypedef recType1 recType2;\ntypedef recType2 recType3;\ntypedef recType3 recType1;\n"

def confTypedefs : Store DefVal := confStore confTypedefsText

theorem confTypedefs_types : confTypedefs.defs .types =
    [(c%"typeChar", .type (ctTy c%"char" [ctPtr, ctPtr])),
    (c%"typeInt", .type (ctTy c%"int" [])),
    (c%"typeIntPtr", .type (ctTy c%"int" [ctPtr])),
    (c%"typeIntArr", .type (ctTy c%"int" [.arr [some 10]])),
    (c%"typeIntDArr", .type (ctTy c%"int" [.arr [some 5], .arr [some 6]])),
    (c%"typeTypeInt", .type (ctTy c%"typeInt" [])),
    (c%"ULONG", .type (ctTy c%"unsigned long" [])),
    (c%"voidpc", .type ⟨c%"void", [ctPtr], [some [c%"const"], some []]⟩),
    (c%"charf", .type ⟨c%"char", [], [some [c%"far"]]⟩),
    (c%"SomeOtherType", .type (ctTy c%"someType" [])),
    (c%"recType2", .type (ctTy c%"recType1" [])),
    (c%"recType3", .type (ctTy c%"recType2" [])),
    (c%"recType1", .type (ctTy c%"recType3" []))] :=
  eqTable_ok (by decide +kernel)

/-- /repo/tests/headers/unions.h. -/
def confUnionsText : Str := c%"/* Test header for unions declaration */\n\n// Test declaring an union.\ntypedef union union_name {\n    int x = 1;\n    int y;\n} *union_name_ptr;\n\n// Test defining an unnamed union\n#pragma pack(push)\n#pragma pack(16)\nunion\n{\n    int x;\n    int y;\n} no_name_union_inst;\n\n#pragma pack(pop)\n// Test defining a structure using an unnamed union internally.\ntypedef struct tagRID_DEVICE_INFO {\n    DWORD cbSize;\n    DWORD dwType;\n    union {\n        RID_DEVICE_INFO_MOUSE mouse;\n        RID_DEVICE_INFO_KEYBOARD keyboard;\n        RID_DEVICE_INFO_HID hid;\n    };\n} RID_DEVICE_INFO, *PRID_DEVICE_INFO, *LPRID_DEVICE_INFO;\n"

def confUnions : Store DefVal := confStore confUnionsText

theorem confUnions_types : confUnions.defs .types =
    [(c%"union union_name", .type (ctTy c%"union" [.sym c%"union_name"])),
    (c%"union_name_ptr", .type (ctTy c%"union union_name" [ctPtr])),
    (c%"union anon_union0", .type (ctTy c%"union" [.sym c%"anon_union0"])),
    (c%"union anon_union1", .type (ctTy c%"union" [.sym c%"anon_union1"])),
    (c%"struct tagRID_DEVICE_INFO", .type (ctTy c%"struct" [.sym c%"tagRID_DEVICE_INFO"])),
    (c%"RID_DEVICE_INFO", .type (ctTy c%"struct tagRID_DEVICE_INFO" [])),
    (c%"PRID_DEVICE_INFO", .type (ctTy c%"struct tagRID_DEVICE_INFO" [ctPtr])),
    (c%"LPRID_DEVICE_INFO", .type (ctTy c%"struct tagRID_DEVICE_INFO" [ctPtr]))] :=
  eqTable_ok (by decide +kernel)

theorem confUnions_structs : confUnions.defs .structs =
    [(c%"tagRID_DEVICE_INFO", .compound [⟨some c%"cbSize", ctTy c%"DWORD" [], .none, none⟩, ⟨some c%"dwType", ctTy c%"DWORD" [], .none, none⟩, ⟨none, ctTy c%"union anon_union1" [], .none, none⟩] none)] :=
  eqTable_ok (by decide +kernel)

theorem confUnions_unions : confUnions.defs .unions =
    [(c%"union_name", .compound [⟨some c%"x", ctTy c%"int" [], .int 1, none⟩, ⟨some c%"y", ctTy c%"int" [], .none, none⟩] none),
    (c%"anon_union0", .compound [⟨some c%"x", ctTy c%"int" [], .none, none⟩, ⟨some c%"y", ctTy c%"int" [], .none, none⟩] (some 16)),
    (c%"anon_union1", .compound [⟨some c%"mouse", ctTy c%"RID_DEVICE_INFO_MOUSE" [], .none, none⟩, ⟨some c%"keyboard", ctTy c%"RID_DEVICE_INFO_KEYBOARD" [], .none, none⟩, ⟨some c%"hid", ctTy c%"RID_DEVICE_INFO_HID" [], .none, none⟩] none)] :=
  eqTable_ok (by decide +kernel)

/-- /repo/tests/headers/variables.h. -/
def confVariablesText : Str := c%"/* Test the parsing of variables of standard types in a header*/\n\n#define INT 1\n#define SQUARE(i) i*i\n// Test defining standard variables.\n// Integers\nsigned short short1 = 1;\nshort int short_int = INT;\nunsigned short short_un = 1;\nunsigned short int short_int_un = 1;\nint int1 = 0x1;\nunsigned un = 1;\nunsigned int int_un = +1;\nlong long1 = 1;\nlong int long_int = 1;\nunsigned long long_un = 1;\nunsigned long int long_int_un = 1;\n__int64 int64 = 1;\nunsigned __int64 int64_un = 1;\nlong long long_long = 1;\nlong long int long_long_int = 1;\nunsigned long long long_long_un = 1;\nunsigned long long int long_long_int_un = 1;\n\n// stddef integers\nsize_t size = 1;\nssize_t ssize = 1;\n\n// C99 integers\nint8_t i8 = 1;\nint16_t i16 = 1;\nint32_t i32 = 1;\nint64_t i64 = 1;\nuint8_t u8 = 1;\nuint16_t u16 = 1;\nuint32_t u32 = 1;\nuint64_t u64 = 1;\n\n// Floating points numbers\nfloat fl = + 1.0;\ndouble db = 1e-1;\nlong double dbl = - 1E1;\n\n// Static and const modifiers\nconst int int_const = SQUARE(2);\nstatic int int_stat = SQUARE(2);\nstatic const int int_con_stat = SQUARE(2);\nextern int int_extern = SQUARE(2);\n\n// String\nchar* str1 = \"normal string\";\nchar** str2 = \"string with macro: INT\";\nstatic const char* const str3 = \"string with comment: /*comment inside string*/\";\nchar* str4 = \"string with define #define MACRO5 macro5_in_string \";\nchar* str5 = \"string with \\\"escaped quotes\\\" \";\n\n// Test complex evaluation.\nfloat x1 = (5 + 3 * 0x1) / 8.0;\n\n// Test type casting handling.\nint x2 = (typeCast)0x544 <<16;\n\n// Test array\nfloat array[2] = {0x1, 3.1415e6};\nstatic const int * const (**intJunk[4]);\n\n// time_t\ntime_t time = 1;\n\nconst int * volatile * typeQualedIntPtrPtr, volatile * typeQualedIntPtr;\n\n// Test type definition precedence\nint (*prec_ptr_of_arr)[1], *(prec_arr_of_ptr[1]), *prec_arr_of_ptr2[1];\n"

def confVariables : Store DefVal := confStore confVariablesText

theorem confVariables_variables : confVariables.defs .«variables» =
    [(c%"short1", .var (.int 1) (ctTy c%"signed short" [])),
    (c%"short_int", .var (.int 1) (ctTy c%"short int" [])),
    (c%"short_un", .var (.int 1) (ctTy c%"unsigned short" [])),
    (c%"short_int_un", .var (.int 1) (ctTy c%"unsigned short int" [])),
    (c%"int1", .var (.int 1) (ctTy c%"int" [])),
    (c%"un", .var (.int 1) (ctTy c%"unsigned" [])),
    (c%"int_un", .var (.int 1) (ctTy c%"unsigned int" [])),
    (c%"long1", .var (.int 1) (ctTy c%"long" [])),
    (c%"long_int", .var (.int 1) (ctTy c%"long int" [])),
    (c%"long_un", .var (.int 1) (ctTy c%"unsigned long" [])),
    (c%"long_int_un", .var (.int 1) (ctTy c%"unsigned long int" [])),
    (c%"int64", .var (.int 1) (ctTy c%"__int64" [])),
    (c%"int64_un", .var (.int 1) (ctTy c%"unsigned __int64" [])),
    (c%"long_long", .var (.int 1) (ctTy c%"long long" [])),
    (c%"long_long_int", .var (.int 1) (ctTy c%"long long int" [])),
    (c%"long_long_un", .var (.int 1) (ctTy c%"unsigned long long" [])),
    (c%"long_long_int_un", .var (.int 1) (ctTy c%"unsigned long long int" [])),
    (c%"size", .var (.int 1) (ctTy c%"size_t" [])),
    (c%"ssize", .var (.int 1) (ctTy c%"ssize_t" [])),
    (c%"i8", .var (.int 1) (ctTy c%"int8_t" [])),
    (c%"i16", .var (.int 1) (ctTy c%"int16_t" [])),
    (c%"i32", .var (.int 1) (ctTy c%"int32_t" [])),
    (c%"i64", .var (.int 1) (ctTy c%"int64_t" [])),
    (c%"u8", .var (.int 1) (ctTy c%"uint8_t" [])),
    (c%"u16", .var (.int 1) (ctTy c%"uint16_t" [])),
    (c%"u32", .var (.int 1) (ctTy c%"uint32_t" [])),
    (c%"u64", .var (.int 1) (ctTy c%"uint64_t" [])),
    (c%"fl", .var (.flt 1) (ctTy c%"float" [])),
    (c%"db", .var (.flt (1 / 10)) (ctTy c%"double" [])),
    (c%"dbl", .var (.flt (-10)) (ctTy c%"long double" [])),
    (c%"int_const", .var (.int 4) ⟨c%"int", [], [some [c%"const"]]⟩),
    (c%"int_stat", .var (.int 4) (ctTy c%"int" [])),
    (c%"int_con_stat", .var (.int 4) ⟨c%"int", [], [some [c%"const"]]⟩),
    (c%"int_extern", .var (.int 4) (ctTy c%"int" [])),
    (c%"str1", .var (.str c%"normal string") (ctTy c%"char" [ctPtr])),
    (c%"str2", .var (.str c%"string with macro: INT") (ctTy c%"char" [ctPtr, ctPtr])),
    (c%"str3", .var (.str c%"string with comment: /*comment inside string*/") ⟨c%"char", [ctPtr], [some [c%"const"], some [c%"const"]]⟩),
    (c%"str4", .var (.str c%"string with define #define MACRO5 macro5_in_string ") (ctTy c%"char" [ctPtr])),
    (c%"str5", .var .none (ctTy c%"char" [ctPtr])),
    (c%"x1", .var .none (ctTy c%"float" [])),
    (c%"x2", .var (.int 88342528) (ctTy c%"int" [])),
    (c%"array", .var (.list [some 1, none]) (ctTy c%"float" [.arr [some 2]])),
    (c%"intJunk", .var .none ⟨c%"int", [ctPtr, ctPtr, ctPtr, .arr [some 4]], [some [c%"const"], some [c%"const"], some [], some [], some []]⟩),
    (c%"time", .var (.int 1) (ctTy c%"time_t" [])),
    (c%"typeQualedIntPtrPtr", .var .none ⟨c%"int", [ctPtr, ctPtr], [some [c%"const"], some [c%"volatile"], some []]⟩),
    (c%"typeQualedIntPtr", .var .none ⟨c%"int", [ctPtr], [some [c%"const", c%"volatile"], some []]⟩),
    (c%"prec_ptr_of_arr", .var .none (ctTy c%"int" [.arr [some 1], ctPtr])),
    (c%"prec_arr_of_ptr", .var .none (ctTy c%"int" [ctPtr, .arr [some 1]])),
    (c%"prec_arr_of_ptr2", .var .none (ctTy c%"int" [ctPtr, .arr [some 1]]))] :=
  eqTable_ok (by decide +kernel)

/-- /repo/tests/headers/ctypes_test.h. -/
def confCtypesText : Str := c%"/********************************************************************\n Hand written header file for the _ctype_test library used in testing\n ********************************************************************/\n\n#if defined(MS_WIN32) || defined(__CYGWIN__)\n#define EXPORT(x) __declspec(dllexport) x\n#else\n#define EXPORT(x) x\n#endif\n\n\n// Test basic global variable and basic function call.\n\nEXPORT(int) an_integer = 42;\n\nEXPORT(int) get_an_integer(void)\n{\n    return an_integer;\n}\n\n// Test function calls returning type that needs to be correctly interpreted\n// to make sense (if restype is wrong won't work.\nEXPORT(char *) my_strdup(char *src);\n\n// Bunch of structure to test structure creation and access to global variables\n// made of complex structures.\n\ntypedef struct {\n    char names[10][20];\n} T;\n\ntypedef struct {\n    char *name;\n    char *value;\n} SPAM;\n\ntypedef struct {\n    char *name;\n    int num_spams;\n    SPAM *spams;\n} EGG;\n\nSPAM my_spams[2] = {\n    { \"name1\", \"value1\" },\n    { \"name2\", \"value2\" },\n};\n\nEGG my_eggs[1] = {\n    { \"first egg\", 1, my_spams }\n};\n\n\n// Functions used to test passing no pointer and getting the right object out.\n\nEXPORT(int) getSPAMANDEGGS(EGG **eggs)\n{\n    *eggs = my_eggs;\n    return 1;\n}\n\ntypedef struct tagpoint {\n    int x;\n    int y;\n} point;\n\nEXPORT(int) _testfunc_byval(point in, point *pout)\n{\n    if (pout) {\n        pout->x = in.x;\n        pout->y = in.y;\n    }\n    return in.x + in.y;\n}\n\n\n// Bit fields manipulations.\n\nstruct BITS {\n    int A: 1, B:2, C:3, D:4, E: 5, F: 6, G: 7, H: 8, I: 9;\n    short M: 1, N: 2, O: 3, P: 4, Q: 5, R: 6, S: 7;\n};\n\nEXPORT(void) set_bitfields(struct BITS *bits, char name, int value)\n{\n    switch (name) {\n    case 'A': bits->A = value; break;\n    case 'B': bits->B = value; break;\n    case 'C': bits->C = value; break;\n    case 'D': bits->D = value; break;\n    case 'E': bits->E = value; break;\n    case 'F': bits->F = value; break;\n    case 'G': bits->G = value; break;\n    case 'H': bits->H = value; break;\n    case 'I': bits->I = value; break;\n\n    case 'M': bits->M = value; break;\n    case 'N': bits->N = value; break;\n    case 'O': bits->O = value; break;\n    case 'P': bits->P = value; break;\n    case 'Q': bits->Q = value; break;\n    case 'R': bits->R = value; break;\n    case 'S': bits->S = value; break;\n    }\n}\n\nEXPORT(int) unpack_bitfields(struct BITS *bits, char name)\n{\n    switch (name) {\n    case 'A': return bits->A;\n    case 'B': return bits->B;\n    case 'C': return bits->C;\n    case 'D': return bits->D;\n    case 'E': return bits->E;\n    case 'F': return bits->F;\n    case 'G': return bits->G;\n    case 'H': return bits->H;\n    case 'I': return bits->I;\n\n    case 'M': return bits->M;\n    case 'N': return bits->N;\n    case 'O': return bits->O;\n    case 'P': return bits->P;\n    case 'Q': return bits->Q;\n    case 'R': return bits->R;\n    case 'S': return bits->S;\n    }\n    return 0;\n}\n"

def confCtypes : Store DefVal := confStore confCtypesText

theorem confCtypes_types : confCtypes.defs .types =
    [(c%"struct anon_struct0", .type (ctTy c%"struct" [.sym c%"anon_struct0"])),
    (c%"T", .type (ctTy c%"struct anon_struct0" [])),
    (c%"struct anon_struct1", .type (ctTy c%"struct" [.sym c%"anon_struct1"])),
    (c%"SPAM", .type (ctTy c%"struct anon_struct1" [])),
    (c%"struct anon_struct2", .type (ctTy c%"struct" [.sym c%"anon_struct2"])),
    (c%"EGG", .type (ctTy c%"struct anon_struct2" [])),
    (c%"struct tagpoint", .type (ctTy c%"struct" [.sym c%"tagpoint"])),
    (c%"point", .type (ctTy c%"struct tagpoint" [])),
    (c%"struct BITS", .type (ctTy c%"struct" [.sym c%"BITS"]))] :=
  eqTable_ok (by decide +kernel)

theorem confCtypes_structs : confCtypes.defs .structs =
    [(c%"anon_struct0", .compound [⟨some c%"names", ctTy c%"char" [.arr [some 10], .arr [some 20]], .none, none⟩] none),
    (c%"anon_struct1", .compound [⟨some c%"name", ctTy c%"char" [ctPtr], .none, none⟩, ⟨some c%"value", ctTy c%"char" [ctPtr], .none, none⟩] none),
    (c%"anon_struct2", .compound [⟨some c%"name", ctTy c%"char" [ctPtr], .none, none⟩, ⟨some c%"num_spams", ctTy c%"int" [], .none, none⟩, ⟨some c%"spams", ctTy c%"SPAM" [ctPtr], .none, none⟩] none),
    (c%"tagpoint", .compound [⟨some c%"x", ctTy c%"int" [], .none, none⟩, ⟨some c%"y", ctTy c%"int" [], .none, none⟩] none),
    (c%"BITS", .compound [] none)] :=
  eqTable_ok (by decide +kernel)

theorem confCtypes_functions : confCtypes.defs .functions =
    [(c%"get_an_integer", .func (.func (ctTy c%"int" []) [(none, ctTy c%"void" [], none)] [some [], some []])),
    (c%"my_strdup", .func (.func (ctTy c%"char" [ctPtr]) [(some c%"src", ctTy c%"char" [ctPtr], none)] [some [], some []])),
    (c%"getSPAMANDEGGS", .func (.func (ctTy c%"int" []) [(some c%"eggs", ctTy c%"EGG" [ctPtr, ctPtr], none)] [some [], some []])),
    (c%"_testfunc_byval", .func (.func (ctTy c%"int" []) [(some c%"in", ctTy c%"point" [], none), (some c%"pout", ctTy c%"point" [ctPtr], none)] [some [], some []])),
    (c%"set_bitfields", .func (.func (ctTy c%"void" []) [(some c%"bits", ctTy c%"struct BITS" [ctPtr], none), (some c%"name", ctTy c%"char" [], none), (some c%"value", ctTy c%"int" [], none)] [some [], some []])),
    (c%"unpack_bitfields", .func (.func (ctTy c%"int" []) [(some c%"bits", ctTy c%"struct BITS" [ctPtr], none), (some c%"name", ctTy c%"char" [], none)] [some [], some []]))] :=
  eqTable_ok (by decide +kernel)

theorem confCtypes_values : confCtypes.defs .values =
    [(c%"an_integer", .value (.int 42))] :=
  eqTable_ok (by decide +kernel)

/-- /repo/tests/headers/macros/macro_conditionals.h. -/
def confCondText : Str := c%"/* This file is used to test the processing of conditional macros. */\n\n#define MACRO\n\n// Test if defined\n#if defined MACRO\n    #define DEFINE_IF\n    int DECLARE_IF;\n#endif\n\n#if defined UNDEFINED\n  #define NO_DEFINE_IF\n  int NO_DECLARE_IF;\n#endif\n\n// Test ifdef\n#ifdef MACRO\n  #define DEFINE_IFDEF\n  int DECLARE_IFDEF;\n#endif\n\n#ifdef UNDEFINED\n  #define NO_DEFINE_IFDEF\n  int NO_DECLARE_IFDEF;\n#endif\n\n// Test if !defined\n#if !defined UNDEFINED\n  #define DEFINE_IFN\n  int DECLARE_IFN;\n#endif\n\n#if !defined MACRO\n  #define NO_DEFINE_IFN\n  int NO_DECLARE_IFN;\n#endif\n\n// Test ifndef\n#ifndef UNDEFINED\n  #define DEFINE_IFNDEF\n  int DECLARE_IFNDEF;\n#endif\n\n#ifndef MACRO\n  #define NO_DEFINE_IFNDEF\n  int NO_DECLARE_IFNDEF;\n#endif\n\n// Test elif\n#ifdef UNDEFINED\n  #define NO_DEFINE_ELIF\n  int NO_DECLARE_ELIF;\n#elif defined MACRO\n  #define DEFINE_ELIF\n  int DECLARE_ELIF;\n#endif\n\n// Test else\n#ifdef UNDEFINED\n  #define NO_DEFINE_ELSE\n  int NO_DECLARE_ELSE;\n#else\n  #define DEFINE_ELSE\n  int DECLARE_ELSE;\n#endif\n\n// Test nested\n#if !defined MACRO_N1\n#  define DEFINE_N1\n   int DECLARE_N1;\n#  ifdef DEFINE_N2\n#    define NO_DEFINE_N2\n#  endif\n#else\n#  define DEFINE_N2\n#endif\n\n#ifndef DEFINE_N3\n  #define DEFINE_N3 10\n  #ifndef DEFINE_N3\n    #define NO_DEFINE_N3\n    int NO_DECLARE_N3;\n  #endif\n#endif\n\n// Test logical operations\n#define VAL1 6\n\n#if defined MACRO && VAL1 < 5\n  #define NO_DEFINE_LOG\n  int NO_DECLARE_LOG;\n#elif defined MACRO && VAL1 > 5\n  #define DEFINE_LOG\n  int DECLARE_LOG;\n#endif\n\n// Test undef\n#define UNDEF\n#ifdef UNDEF\n    #define DEFINE_UNDEF\n#endif\n#undef UNDEF\n"

def confCond : Store DefVal := confStore confCondText

theorem confCond_variables : confCond.defs .«variables» =
    [(c%"DECLARE_IF", .var .none (ctTy c%"int" [])),
    (c%"DECLARE_IFDEF", .var .none (ctTy c%"int" [])),
    (c%"DECLARE_IFN", .var .none (ctTy c%"int" [])),
    (c%"DECLARE_IFNDEF", .var .none (ctTy c%"int" [])),
    (c%"DECLARE_ELIF", .var .none (ctTy c%"int" [])),
    (c%"DECLARE_ELSE", .var .none (ctTy c%"int" [])),
    (c%"DECLARE_N1", .var .none (ctTy c%"int" [])),
    (c%"DECLARE_LOG", .var .none (ctTy c%"int" []))] :=
  eqTable_ok (by decide +kernel)

theorem confCond_macros : confCond.defs .macros =
    [(c%"MACRO", .macro c%""),
    (c%"DEFINE_IF", .macro c%""),
    (c%"DEFINE_IFDEF", .macro c%""),
    (c%"DEFINE_IFN", .macro c%""),
    (c%"DEFINE_IFNDEF", .macro c%""),
    (c%"DEFINE_ELIF", .macro c%""),
    (c%"DEFINE_ELSE", .macro c%""),
    (c%"DEFINE_N1", .macro c%""),
    (c%"DEFINE_N3", .macro c%"10"),
    (c%"VAL1", .macro c%"6"),
    (c%"DEFINE_LOG", .macro c%""),
    (c%"DEFINE_UNDEF", .macro c%"")] :=
  eqTable_ok (by decide +kernel)

/-- /repo/tests/headers/macros/macro_functions.h. -/
def confMacroFnsText : Str := c%"/* This file is used to test the preprocessing of macro functions*/\n\n// Test macro function definition\n#define CARRE(a) a*a\nint carre = CARRE(2);\n\n#define EXPORT(x) x __declspec(dllexport)\nEXPORT(int) function2();\n\n#define EXPORT(x) __declspec(dllexport) x\nEXPORT(int) function3();\n\n#define EXPORT(x) __declspec(dllexport) x\nEXPORT(int *) function4();\n\n// Test defining a macro function as an alias for another one.\n#define MAKEINTRESOURCEA(i) ((LPSTR)((ULONG_PTR)((WORD)(i))))\n#define MAKEINTRESOURCEW(i) ((LPWSTR)((ULONG_PTR)((WORD)(i))))\n\n#ifdef UNICODE\n  #define MAKEINTRESOURCE  MAKEINTRESOURCEW\n#else\n  #define MAKEINTRESOURCE  MAKEINTRESOURCEA\n#endif // !UNICODE\nint x = MAKEINTRESOURCE(4);\n\n// Test using a macro value in a macro function call\n#define BIT 0x01\n#define SETBIT(x, b)   ((x) |= (b))\nint y = 0;\nSETBIT(y, BIT);\n\n// Test defining a macro function calling other macros (values and functions)\n#define SETBITS(x, y) (SETBIT(x, BIT), SETBIT(y, BIT))\nint z1, z2 = SETBITS(1, 2); // This is incorrect but can be preprocessed.\n\n// Test defining a macro function calling nested macro functions\n#define SETBIT_AUTO(x) (SETBITS(x, x))\nint z3 = SETBIT_AUTO(3);\n"

def confMacroFns : Store DefVal := confStore confMacroFnsText

theorem confMacroFns_fnmacros : confMacroFns.defs .fnmacros =
    [(c%"CARRE", .fnmacro (c%"{}*{}", [0, 0])),
    (c%"EXPORT", .fnmacro (c%"__declspec(dllexport) {}", [0])),
    (c%"MAKEINTRESOURCEA", .fnmacro (c%"((LPSTR)((ULONG_PTR)((WORD)({}))))", [0])),
    (c%"MAKEINTRESOURCEW", .fnmacro (c%"((LPWSTR)((ULONG_PTR)((WORD)({}))))", [0])),
    (c%"MAKEINTRESOURCE", .fnmacro (c%"((LPSTR)((ULONG_PTR)((WORD)({}))))", [0])),
    (c%"SETBIT", .fnmacro (c%"(({}) |= ({}))", [0, 1])),
    (c%"SETBITS", .fnmacro (c%"((({}) |= (0x01)), (({}) |= (0x01)))", [0, 1])),
    (c%"SETBIT_AUTO", .fnmacro (c%"(((({}) |= (0x01)), (({}) |= (0x01))))", [0, 0]))] :=
  eqTable_ok (by decide +kernel)

theorem confMacroFns_values : confMacroFns.defs .values =
    [(c%"BIT", .value (.int 1)),
    (c%"carre", .value (.int 4)),
    (c%"x", .value (.int 4)),
    (c%"y", .value (.int 0))] :=
  eqTable_ok (by decide +kernel)

theorem confMacroFns_functions : confMacroFns.defs .functions =
    [(c%"function2", .func (.func (ctTy c%"int" []) [] [some [], some []])),
    (c%"function3", .func (.func ⟨c%"int", [], [some [c%"__", c%"(...)"]]⟩ [] [some [], some []])),
    (c%"function4", .func (.func ⟨c%"int", [ctPtr], [some [c%"__", c%"(...)"], some []]⟩ [] [some [], some []]))] :=
  eqTable_ok (by decide +kernel)

/-- /repo/tests/headers/macros/macro_values.h. -/
def confMacroValsText : Str := c%"/* This is file is used to test the processing of macro values. */\n\n#define M\n#define N n\n\n// Decimal values\n#define MACRO_D1 1\n#define MACRO_D2 -2U\n#define MACRO_D3 + 3UL\n\n// Bit shifted decimal values\n#define MACRO_SD1 (1 << 1)\n#define MACRO_SD2 (2U << 2)\n#define MACRO_SD3 (3UL << 3)\n\n// Hexadecimal values\n#define MACRO_H1 +0x000000\n#define MACRO_H2 - 0x000001U\n#define MACRO_H3 0X000002UL\n\n// Bit shifted hexadecimal values\n#define MACRO_SH1 (0x000000 << 1)\n#define MACRO_SH2 (0x000001U << 2)\n#define MACRO_SH3 (0X000002UL << 3)\n\n// Floating values\n#define MACRO_F1 1.0\n#define MACRO_F2 1.1e1\n#define MACRO_F3 -1.1E-1\n\n// String macro\n#define MACRO_S \"test\"\n\n// Nested macro\n#define MACRO 1\n#define MACRO2 2\n#define NESTED MACRO\n#define NESTED2 NESTED\n#define MACRO_N MACRO + MACRO2\n\n// Multiline macro\n#define MACRO_ML MACRO\\\n                  *MACRO2\n"

def confMacroVals : Store DefVal := confStore confMacroValsText

theorem confMacroVals_macros : confMacroVals.defs .macros =
    [(c%"M", .macro c%""),
    (c%"N", .macro c%"n"),
    (c%"MACRO_D1", .macro c%"1"),
    (c%"MACRO_D2", .macro c%"-2U"),
    (c%"MACRO_D3", .macro c%"+ 3UL"),
    (c%"MACRO_SD1", .macro c%"(1 << 1)"),
    (c%"MACRO_SD2", .macro c%"(2U << 2)"),
    (c%"MACRO_SD3", .macro c%"(3UL << 3)"),
    (c%"MACRO_H1", .macro c%"+0x000000"),
    (c%"MACRO_H2", .macro c%"- 0x000001U"),
    (c%"MACRO_H3", .macro c%"0X000002UL"),
    (c%"MACRO_SH1", .macro c%"(0x000000 << 1)"),
    (c%"MACRO_SH2", .macro c%"(0x000001U << 2)"),
    (c%"MACRO_SH3", .macro c%"(0X000002UL << 3)"),
    (c%"MACRO_F1", .macro c%"1.0"),
    (c%"MACRO_F2", .macro c%"1.1e1"),
    (c%"MACRO_F3", .macro c%"-1.1E-1"),
    (c%"MACRO_S", .macro c%"\"test\""),
    (c%"MACRO", .macro c%"1"),
    (c%"MACRO2", .macro c%"2"),
    (c%"NESTED", .macro c%"1"),
    (c%"NESTED2", .macro c%"1"),
    (c%"MACRO_N", .macro c%"1 + 2"),
    (c%"MACRO_ML", .macro c%"1                  *2")] :=
  eqTable_ok (by decide +kernel)

theorem confMacroVals_values : confMacroVals.defs .values =
    [(c%"M", .value .none),
    (c%"N", .value .none),
    (c%"MACRO_D1", .value (.int 1)),
    (c%"MACRO_D2", .value (.int (-2))),
    (c%"MACRO_D3", .value (.int 3)),
    (c%"MACRO_SD1", .value (.int 2)),
    (c%"MACRO_SD2", .value (.int 8)),
    (c%"MACRO_SD3", .value (.int 24)),
    (c%"MACRO_H1", .value (.int 0)),
    (c%"MACRO_H2", .value (.int (-1))),
    (c%"MACRO_H3", .value (.int 2)),
    (c%"MACRO_SH1", .value (.int 0)),
    (c%"MACRO_SH2", .value (.int 4)),
    (c%"MACRO_SH3", .value (.int 16)),
    (c%"MACRO_F1", .value (.flt 1)),
    (c%"MACRO_F2", .value (.flt 11)),
    (c%"MACRO_F3", .value (.flt (-11 / 100))),
    (c%"MACRO_S", .value (.str c%"test")),
    (c%"MACRO", .value (.int 1)),
    (c%"MACRO2", .value (.int 2)),
    (c%"NESTED", .value (.int 1)),
    (c%"NESTED2", .value (.int 1)),
    (c%"MACRO_N", .value (.int 3)),
    (c%"MACRO_ML", .value (.int 2))] :=
  eqTable_ok (by decide +kernel)

/-- /repo/tests/headers/macros/pragmas.h. -/
def confPragmasText : Str := c%"/* File used to test the handling of the pragma pack*/\n\n// Use default packing\n#pragma pack()   // n defaults to 8; equivalent to /Zp8\n\n// Change default packing\n#pragma pack(4)   // n = 4\n\n// Push and select custom packing\n#define PACKING 16\n#pragma pack(push, r1, PACKING)   // n = 16, pushed to stack\n\n// Change packing back to default\n#pragma pack()\n\n// Push current packing to stack (twice for pop test)\n#pragma pack(push, r2)\n#pragma pack(push, r3, 4)\n\n// Remove packing\n#pragma pack(pop, r2)\n#pragma pack(pop)\n\n// Test handling of unknown pragmas\n#pragma omp parallel\n"

def confPragmas : Store DefVal := confStore confPragmasText

/-- The text left by `process_all` for one header (`CParser.files[path]`). -/
def confStream (text : Str) : Str :=
  match processFile confSetup Store.empty c%"x.h" text with
  | .ok (_, out) => out
  | .error _ => []

/-- `a in b` for texts. -/
def confIn (a b : Str) : Bool := b.tails.any (startsWith · a)

/-- `CParser.pack_list[path]` for one header. -/
def confPacks (text : Str) : List (Option Nat) :=
  match preprocess confSetup.sem (setFile Store.empty (some c%"x.h")) (removeComments text) with
  | .ok (st, _) => st.packList.map (·.2)
  | .error _ => []

/-- test_pragmas (test_parser.py:511-535). -/
theorem confPragmas_packs : strip (confStream confPragmasText) = [] ∧
    confPacks confPragmasText = [none, none, some 4, some 16, none, none, some 4, some 16, none] := by decide +kernel

/-- test_macro_function (test_parser.py:472-509). -/
theorem confMacroFns_stream : ∀ a ∈ [c%"int carre = 2*2;", c%"int __declspec(dllexport) function2()",
    c%"__declspec(dllexport) int function3()", c%"__declspec(dllexport) int * function4()", c%"((y) |= (0x01))",
    c%"int z1, z2 = (((1) |= (0x01)), ((2) |= (0x01)));", c%"int z3 = ((((3) |= (0x01)), ((3) |= (0x01))));"],
    confIn a (confStream confMacroFnsText) = true := by decide +kernel

/-- test_conditionals (test_parser.py:406-470). -/
theorem confCond_stream : (∀ a ∈ [c%"  int DECLARE_IF;\n", c%"  int DECLARE_IFDEF;\n", c%"  int DECLARE_IFN;\n",
    c%"  int DECLARE_IFNDEF;\n", c%"  int DECLARE_ELIF;\n", c%"  int DECLARE_ELSE;\n", c%"  int DECLARE_N1;\n",
    c%"  int DECLARE_LOG;\n"], confIn a (confStream confCondText) = true) ∧
    (∀ a ∈ [c%"  int NO_DECLARE_IF;\n", c%"  int NO_DECLARE_IFDEF;\n", c%"  int NO_DECLARE_IFN;\n",
    c%"  int NO_DECLARE_IFNDEF;\n", c%"  int NO_DECLARE_ELIF;\n", c%"  int NO_DECLARE_ELSE;\n",
    c%"  int NO_DECLARE_N3;\n"], confIn a (confStream confCondText) = false) := by decide +kernel

/-- `compare_lines` (test_parser.py:21-24) on two texts. -/
def confLines (a b : Str) : Bool :=
  ((splitOnC '\n' a).zip (splitOnC '\n' b)).all fun p => decide (strip p.1 = strip p.2)

/-- test_removing_c_comments (test_parser.py:265-270). -/
theorem confComments_c : confLines
    (removeComments c%"/* This is file is used to test the removal of C style comments */\n\n# define MACRO 1 /* inline comment */\n\n/* before comment */ int between_comments /* comments */\n\n/*char* str4 = \"string inside comment\"*/\n\n/*char* str5 = \"commented string with \\\"escaped quotes\\\" \"*/\n\nchar* str3 = \"/*zzz*/\" /*Comments inside a string*/\n\nstruct structName\n{\n  int x; typeTypeInt y;\n  char str[10] = \"brace }  \\0\"; /* commented brace } */\n} structInst;\n")
    c%"\n\n# define MACRO 1\n\n int between_comments\n\n\n\n\n\nchar* str3 = \"/*zzz*/\"\n\nstruct structName\n{\n  int x; typeTypeInt y;\n  char str[10] = \"brace }  \\0\";\n} structInst;\n" = true := by decide +kernel

/-- test_removing_cpp_comments (test_parser.py:272-277). -/
theorem confComments_cpp : confLines
    (removeComments c%"// This is file is used to test the removal of C++ style comments\n\n# define MACRO 1 // inline comment\n\n//char* str4 = \"string inside comment\"\n\n//char* str5 = \"commented string with \\\"escaped quotes\\\" \"\n\nchar* str3 = \"//zzz\" //Comments inside a string*/\n\nstruct structName\n{\n  int x; typeTypeInt y;\n  char str[10] = \"brace }  \\0\"; // commented brace }\n} structInst;\n")
    c%"\n\n# define MACRO 1\n\n\n\n\n\nchar* str3 = \"//zzz\"\n\nstruct structName\n{\n  int x; typeTypeInt y;\n  char str[10] = \"brace }  \\0\";\n} structInst;" = true := by decide +kernel

end Pyclib
