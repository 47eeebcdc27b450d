import Verif.Props.Grammar

/-! Declarations in C syntax for which C58 does not hold: what the parser does with them. -/

namespace Pyclib
open Spec

/-- C58 does not extend to attributes behind a declarator: the declaration is lost. -/
theorem C58_counterexample_attribute :
    namesOf c%"int f() __a((b)); int x __a; int y;" = [[], [], [c%"y"], [], []] := by decide +kernel

/-- C58 does not extend to attributes of structs behind the members: the struct is recorded without the packing that was
asked for, and so are variables that do not exist. -/
theorem C58_counterexample_packed :
    namesOf c%"struct s {char c; int a;} __attribute__((packed));" =
      [[c%"struct s"], [], [c%"c", c%"a"], [c%"s"], []] ∧
    (dget ((parseDefs exGram Store.empty c%"struct s {char c; int a;} __attribute__((packed));").1.defs .structs) c%"s").map
      (fun d => match d with | .compound ms p => (ms.length, p) | _ => (0, none)) = some (2, none) := by
  refine ⟨?_, ?_⟩ <;> decide +kernel

/-- C58 does not extend to attributes of structs in front of the tag: the attribute is taken for the tag, and the members
for variables. -/
theorem C58_counterexample_packed_tag :
    namesOf c%"struct __packed(1) s {char c; int a;};" =
      [[c%"struct __packed"], [], [c%"c", c%"a"], [c%"__packed"], []] := by decide +kernel

/-- C58 does not extend to casts to built-in or pointer types, nor to the operator `!`: the declarations are lost. -/
theorem C58_counterexample_cast :
    namesOf c%"int a = (int) 3; int d = (u32) 3;" = [[], [], [c%"d"], [], []] ∧
    namesOf c%"int *b = (t *) 0; int c = !0;" = [[], [], [], [], []] := by
  refine ⟨?_, ?_⟩ <;> decide +kernel

/-- C58 does not extend to a name alone in parentheses in front of a sign: `(A) + 3` is read as a cast, and only `+ 3` is
evaluated for the value of the variable. -/
theorem C58_counterexample_paren :
    (parseDefs { exGram with ev := fun _ e => if e = c%"+ 3" then .int 3 else .none } Store.empty
        c%"int x = (A) + 3;").1.defs .variables =
      [(c%"x", .var (.int 3) ⟨c%"int", [], [some []]⟩)] := by rfl

/-- C58 does not extend to floating constants with a suffix, or with an exponent behind more than one digit: the
declaration is lost. -/
theorem C58_counterexample_float :
    namesOf c%"double a = 1.5f; double c = 1.5;" = [[], [], [c%"c"], [], []] ∧
    namesOf c%"double b = 12e3;" = [[], [], [], [], []] := by
  refine ⟨?_, ?_⟩ <;> decide +kernel

/-- C58 does not extend to an enumerator given by a character constant: the enumeration is lost. -/
theorem C58_counterexample_enum : namesOf c%"enum e {A = 'a', B}; enum f {C, D};" = [[c%"enum f"], [], [], [], [c%"f"]] := by
  decide +kernel

/-- C58 does not extend to a trailing comma in a list of values, nor to `sizeof` in a length. -/
theorem C58_counterexample_lists :
    namesOf c%"int a[2] = {1, 2,};" = [[], [], [], [], []] ∧
    namesOf c%"int b[sizeof(int)]; int c[2] = {1, 2};" = [[], [], [c%"c"], [], []] := by
  refine ⟨?_, ?_⟩ <;> decide +kernel

/-- The condition `linkTok` on what follows `extern "C"` is needed: the quotation mark after `C` is taken for the
beginning of a string literal that may stand in front of a semicolon (c_parser.py:1785), here the first character of
the value of `s`, and the declaration of `s` is lost.  Without the semicolon in the literal it is not. -/
theorem C58_counterexample_linkage :
    namesOf c%"extern \"C\" { char *s = \";\"; int f(void); }" = [[], [c%"f"], [], [], []] ∧
      namesOf c%"extern \"C\" { char *s = \"a\"; int f(void); }" = [[], [c%"f"], [c%"s"], [], []] := by
  refine ⟨?_, ?_⟩ <;> decide +kernel

end Pyclib
