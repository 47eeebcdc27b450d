{
 "claims": [
  {
   "property": "C01",
   "status": "proved",
   "theorems": [
    "Pyclib.C01_terminates",
    "Pyclib.C01_result",
    "Pyclib.C01_signed",
    "Pyclib.C01_ok_iff",
    "Pyclib.C01_error_iff",
    "Pyclib.C01_callconv_typeError"
   ],
   "note": "For every type map and type whose qualifier lists are well formed (as Type.__init__ enforces). Success/failure characterisation assumes no calling-convention placeholder (None) at a merge point; C01_callconv_typeError shows that such a typedef makes resolution raise TypeError."
  },
  {
   "property": "C02",
   "status": "proved",
   "theorems": [
    "Pyclib.C02_stable",
    "Pyclib.C02_fixpoint",
    "Pyclib.C02_signed_empty",
    "Pyclib.C02_double_blank"
   ],
   "note": "For the fundamental names the grammar produces (ParserName). Quirks recorded: bare 'signed' resolves to '', 'long signed int' to 'long  int'."
  },
  {
   "property": "C03",
   "status": "proved",
   "theorems": [
    "Pyclib.C03_declarator",
    "Pyclib.C03_eval",
    "Pyclib.C03_hack"
   ],
   "note": "Every declarator tree (nested parameter types included), every typedef resolution over a table of such types, both compatibility conversions."
  },
  {
   "property": "C04",
   "status": "partial",
   "theorems": [
    "Pyclib.C04_roundtrip_partial",
    "Pyclib.C04_roundtrip_iff",
    "Pyclib.C04_nonfunction",
    "Pyclib.C04_counterexample"
   ],
   "note": "Base and modifiers survive; qualifiers are erased by remove_compatibility_hack (exact condition and counterexample proved)."
  },
  {
   "property": "C05",
   "status": "proved",
   "theorems": [
    "Pyclib.C05_history",
    "Pyclib.C05_visible",
    "Pyclib.C05_frame",
    "Pyclib.C05_rem_raises"
   ],
   "note": "All histories of add/rem/file switch/import (imports of well-formed data), any initial state."
  },
  {
   "property": "C06",
   "status": "proved",
   "theorems": [
    "Pyclib.C06_attributed",
    "Pyclib.C06_stale_record"
   ],
   "note": "All histories, including imports of malformed data. The converse fails (stale record after a cross-file #undef), shown by C06_stale_record."
  },
  {
   "property": "C07",
   "status": "proved",
   "theorems": [
    "Pyclib.C07_find",
    "Pyclib.C07_nodup",
    "Pyclib.C07_visible_found",
    "Pyclib.C07_find_pattern"
   ],
   "note": "All histories; string and pattern forms."
  },
  {
   "property": "C08",
   "status": "proved",
   "theorems": [
    "Pyclib.C08_import",
    "Pyclib.C08_export_good",
    "Pyclib.C08_copy_from"
   ],
   "note": "All well-formed import data; every parser's own file_defs is well formed."
  },
  {
   "property": "C09",
   "status": "proved",
   "theorems": [
    "Pyclib.C09_idempotent"
   ],
   "note": "All stores, all well-formed data; equality of all lookups in defs and file_defs."
  },
  {
   "property": "C10",
   "status": "partial",
   "theorems": [
    "Pyclib.C10_roundtrip_partial",
    "Pyclib.C10_reload_value",
    "Pyclib.C10_nothing_lost",
    "Pyclib.C10_counterexample_undef",
    "Pyclib.C10_counterexample_kwargs",
    "Pyclib.C10_counterexample_basename"
   ],
   "note": "Exact round trip for histories that do not resume a file and only remove names not recorded elsewhere; refuted for cross-file #undef, #undef of constructor macros and files sharing a base name."
  },
  {
   "property": "C100",
   "status": "partial",
   "theorems": [
    "Pyclib.C100_alike_partial",
    "Pyclib.C100_pragma_partial",
    "Pyclib.C100_example",
    "Pyclib.C100_counterexample_ne"
   ],
   "note": "C100_alike_partial: BlockAlike (Spec/Alike) is the congruence of these rewritings on trees of lines; equivalence of conditions is taken for all sets of defined names, in the fragment of C30 without other identifiers. C100_pragma_partial: with pragmas under the conditions of C99. Missing as in C99: selected lines that begin with a number or sign or end in a backslash; equivalent conditions on the values of macros. Outside the fragment it is false: 1 != 2 and !(1 == 2) differ (C100_counterexample_ne)."
  },
  {
   "property": "C101",
   "status": "partial",
   "theorems": [
    "Pyclib.C101_given_partial",
    "Pyclib.C101_file",
    "Pyclib.C101_files",
    "Pyclib.C101_example",
    "Pyclib.C101_counterexample_values",
    "Pyclib.C101_counterexample_undef"
   ],
   "note": "C101_given_partial: for every header of lines #define x body (DefLine: the body does not mention the other names and does not begin with a parenthesis) and all files that ask for no value of these names (AsksNoValue), same exception or same tables except for the values of the names. C101_files is the reason: values that no file asks for have no influence. The constructor records no values (C101_counterexample_values), so without the condition it is false: after #undef a constant expression still finds the value of a macro of a header, but not of a given one (C101_counterexample_undef). Missing: macros with arguments, macros that use each other (the header expands them when it is read, the constructor does not)."
  },
  {
   "property": "C102",
   "status": "partial",
   "theorems": [
    "Pyclib.C102_copy_partial",
    "Pyclib.C102_many_partial",
    "Pyclib.C102_chain_partial",
    "Pyclib.C102_order_partial",
    "Pyclib.C102_visible",
    "Pyclib.C102_example",
    "Pyclib.C102_many_example",
    "Pyclib.C102_chain_example",
    "Pyclib.C102_order_example",
    "Pyclib.C102_counterexample_undef",
    "Pyclib.C102_counterexample_apart"
   ],
   "note": "C102_copy_partial: for all gs without condition, all fs with CacheSafe (different base names; no #undef of a macro that another file or a keyword argument defines), all exceptions. C102_visible: files that follow depend on nothing but what lookups in the tables show. Without CacheSafe it is false: a macro that was undefined by another header comes back and selects other text (C102_counterexample_undef). C102_many_partial: several parsers in copy_from, each with its own group of headers, if no header defines what another one defines or asks for (Apart, as in C85; needed: C102_counterexample_apart); C102_order_partial: then the order of the parsers does not matter. C102_chain_partial: chains of any length, each parser copying from the one before it (CacheSafe for all headers of the chain). Missing: different keyword arguments; keyword arguments with several parsers or chains."
  },
  {
   "property": "C103",
   "status": "proved",
   "theorems": [
    "Pyclib.C103_unread",
    "Pyclib.C103_kwargs",
    "Pyclib.C103_copy",
    "Pyclib.C103_example",
    "Pyclib.C103_counterexample"
   ],
   "note": "C103_unread: any two tables that agree outside a set R of definitions, any list of files that asks for none of R (FileReads of C85, in every state in which a file is reached). C103_kwargs: keyword arguments (macros as texts). C103_copy: a parser given by copy_from, under CacheSafe of C68. Conditions on the parameters as in C85: Python evaluates a text by the values of its words, no extra type or modifier is the empty string. A definition that a header asks for does change other names (C103_counterexample)."
  },
  {
   "property": "C11",
   "status": "proved",
   "theorems": [
    "Pyclib.C11_stale",
    "Pyclib.C11_path",
    "Pyclib.C11_missing"
   ],
   "note": "All file systems, source lists and cache contents."
  },
  {
   "property": "C12",
   "status": "partial",
   "theorems": [
    "Pyclib.C12_accept_iff",
    "Pyclib.C12_options_version",
    "Pyclib.C12_opts_cover_partial",
    "Pyclib.C12_counterexample_copy_from"
   ],
   "note": "Acceptance condition exact; recorded options do not cover copy_from and encoding (counterexample)."
  },
  {
   "property": "C13",
   "status": "partial",
   "theorems": [
    "Pyclib.C13_no_trace_partial",
    "Pyclib.C13_written_good",
    "Pyclib.C13_counterexample"
   ],
   "note": "No trace whenever the definitions part is importable (always so for caches written by the library); a malformed cache leaves partial imports (counterexample)."
  },
  {
   "property": "C14",
   "status": "proved",
   "theorems": [
    "Pyclib.C14_skip_iff",
    "Pyclib.C14_accepted",
    "Pyclib.C14_parse_order",
    "Pyclib.C14_written_accepted"
   ],
   "note": "Per-file parsing is an arbitrary state transformer that keeps options and file list."
  },
  {
   "property": "C15",
   "status": "proved",
   "theorems": [
    "Pyclib.C15_remove_comments",
    "Pyclib.C15_only_deletes",
    "Pyclib.C15_differs_from_C"
   ],
   "note": "Character-level model of the pyparsing scan. Every well formed sequence of code, literals and comments; for arbitrary text: only deletions. C15_differs_from_C records two differences from C translation phases that the claim does not exclude."
  },
  {
   "property": "C16",
   "status": "proved",
   "theorems": [
    "Pyclib.C16_join",
    "Pyclib.C16_every_text"
   ],
   "note": "Every text is a gluing of pieces free of backslash-newline; joining gives their concatenation."
  },
  {
   "property": "C17",
   "status": "partial",
   "theorems": [
    "Pyclib.C17_selects",
    "Pyclib.C17_text",
    "Pyclib.C17_total",
    "Pyclib.C17_counterexample_bad_define",
    "Pyclib.C17_source",
    "Pyclib.C17_source_names",
    "Pyclib.C17_leaf"
   ],
   "note": "Proved for every tree of conditionals and every macro semantics. The clause 'nothing in a skipped branch has any effect' fails for a #define/#undef without a name (AttributeError even when skipped), hence partial."
  },
  {
   "property": "C18",
   "status": "proved",
   "theorems": [
    "Pyclib.C18_refines",
    "Pyclib.C18_dead"
   ],
   "note": "Refinement of a line-by-line semantics whose open conditionals ignore each other; macro semantics arbitrary."
  },
  {
   "property": "C19",
   "status": "partial",
   "theorems": [
    "Pyclib.C19_unmatched_raises",
    "Pyclib.C19_only_unmatched",
    "Pyclib.C19_exact",
    "Pyclib.C19_counterexample_pop"
   ],
   "note": "Exact for files without pragmas and with well formed definitions; in general an unmatched closer always raises, and other sources of exceptions are listed (pack underflow also gives IndexError)."
  },
  {
   "property": "C20",
   "status": "partial",
   "theorems": [
    "Pyclib.C20_line_numbers",
    "Pyclib.C20_preserved_partial",
    "Pyclib.C20_counterexample",
    "Pyclib.C20_counterexample_shift"
   ],
   "note": "The claim is false: some directives leave no line behind. Exact count proved instead."
  },
  {
   "property": "C21",
   "status": "partial",
   "theorems": [
    "Pyclib.C21_packing_at",
    "Pyclib.C21_struct_partial",
    "Pyclib.C21_counterexample"
   ],
   "note": "packing_at is characterised exactly; the claim is false for a pragma on the line right after the struct and after dropped lines."
  },
  {
   "property": "C22",
   "status": "partial",
   "theorems": [
    "Pyclib.C22_balanced",
    "Pyclib.C22_restores_partial",
    "Pyclib.C22_msvc_partial",
    "Pyclib.C22_pop_label",
    "Pyclib.C22_pop_underflow",
    "Pyclib.C22_pop_value_underflow",
    "Pyclib.C22_counterexample_set"
   ],
   "note": "Stack discipline proved for all sequences; the documented (MSVC) meaning fails for plain pack(n), push without value, and repeated labels."
  },
  {
   "property": "C23",
   "status": "partial",
   "theorems": [
    "Pyclib.C23_unchanged_partial",
    "Pyclib.C23_counterexample"
   ],
   "note": "True for every line with at most one quotation mark, or whose last character alone is not an object-like macro; otherwise the string-literal bug re-examines the last character alone (counterexample)."
  },
  {
   "property": "C24",
   "status": "proved",
   "theorems": [
    "Pyclib.C24_terminates",
    "Pyclib.C24_no_rescan"
   ],
   "note": "All lines and tables; step count bounded by the line length."
  },
  {
   "property": "C25",
   "status": "partial",
   "theorems": [
    "Pyclib.C25_no_string",
    "Pyclib.C25_covers",
    "Pyclib.C25_with_string",
    "Pyclib.C25_string_partial",
    "Pyclib.C25_counterexample"
   ],
   "note": "Full claim for every line without a string literal; exact behaviour for lines with one (text after the first literal is not expanded, contrary to the claim); nothing inside a literal is ever replaced."
  },
  {
   "property": "C26",
   "status": "partial",
   "theorems": [
    "Pyclib.C26_substitute",
    "Pyclib.C26_call_partial",
    "Pyclib.C26_define",
    "Pyclib.C26_counterexample_braces",
    "Pyclib.C26_counterexample_nested",
    "Pyclib.C26_counterexample_gap"
   ],
   "note": "Proved for brace-free bodies and arguments without commas and closing parentheses; fails for braces in bodies, nested calls, and text between name and parenthesis (counterexamples)."
  },
  {
   "property": "C27",
   "status": "partial",
   "theorems": [
    "Pyclib.C27_incomplete",
    "Pyclib.C27_missing",
    "Pyclib.C27_counterexample"
   ],
   "note": "Incomplete argument lists and missing arguments that the body needs; a missing argument the body does not use is not detected (counterexample)."
  },
  {
   "property": "C28",
   "status": "proved",
   "theorems": [
    "Pyclib.C28_fixed",
    "Pyclib.C28_fixed_fn",
    "Pyclib.C28_copy"
   ],
   "note": "All sequences of later events under other names."
  },
  {
   "property": "C29",
   "status": "partial",
   "theorems": [
    "Pyclib.C29_undef_partial",
    "Pyclib.C29_undef_missing",
    "Pyclib.C29_counterexample"
   ],
   "note": "Proved for object-like macros; #undef does not remove function-like macros (counterexample)."
  },
  {
   "property": "C30",
   "status": "partial",
   "theorems": [
    "Pyclib.C30_agrees_partial",
    "Pyclib.C30_eval_partial",
    "Pyclib.C30_numbers",
    "Pyclib.C30_counterexample_ne",
    "Pyclib.C30_counterexample_chain",
    "Pyclib.C30_counterexample_not_left",
    "Pyclib.C30_counterexample_not_right",
    "Pyclib.C30_counterexample_or_value",
    "Pyclib.C30_counterexample_constants",
    "Pyclib.C30_ifdef",
    "Pyclib.C30_keyword"
   ],
   "note": "Holds for every expression (any depth, any blanks, any macro table with numeric macros) without !=, chained comparisons, ! as comparison operand, and numeric use of &&/||; the code is proved to disagree with C on each of these and on hex/octal/suffixed constants."
  },
  {
   "property": "C31",
   "status": "proved",
   "theorems": [
    "Pyclib.C31_total",
    "Pyclib.C31_invalid",
    "Pyclib.C31_valid",
    "Pyclib.C31_condition",
    "Pyclib.C31_preprocess"
   ],
   "note": "For every text and every behaviour of Python's eval outside the modelled fragment; non-terminating eval (9**9**9...) is outside the model."
  },
  {
   "property": "C32",
   "status": "partial",
   "theorems": [
    "Pyclib.C32_declarator_partial",
    "Pyclib.C32_denotes_unique",
    "Pyclib.C32_counterexample_paren",
    "Pyclib.C32_counterexample_conv",
    "Pyclib.C32_counterexample_ref"
   ],
   "note": "Every declarator tree except array brackets directly around a parenthesised array, a bare calling convention in front of a parenthesis and C++ references to arrays/functions; the code is proved wrong on each of these. From header text: C61."
  },
  {
   "property": "C33",
   "status": "partial",
   "theorems": [
    "Pyclib.C33_values",
    "Pyclib.C33_existing",
    "Pyclib.C33_counterexample_failure"
   ],
   "note": "Every enumerator list whose explicit expressions evaluate to integers (each with the earlier enumerators visible). If an expression fails, the enum is dropped but earlier values stay (counterexample)."
  },
  {
   "property": "C34",
   "status": "proved",
   "theorems": [
    "Pyclib.C34_fresh",
    "Pyclib.C34_enum",
    "Pyclib.C34_struct"
   ],
   "note": "Every table of existing definitions, by pigeonhole."
  },
  {
   "property": "C35",
   "status": "partial",
   "theorems": [
    "Pyclib.C35_mention",
    "Pyclib.C35_members",
    "Pyclib.C35_body",
    "Pyclib.C35_history",
    "Pyclib.C35_bit_width",
    "Pyclib.C35_counterexample_hex",
    "Pyclib.C35_counterexample_anonymous"
   ],
   "note": "All histories of mentions and bodies; bodies with decimal bit widths always replace. A non-decimal bit width drops the struct and an unnamed qualified member gets a wrong type (counterexamples)."
  },
  {
   "property": "C36",
   "status": "partial",
   "theorems": [
    "Pyclib.C36_isFn",
    "Pyclib.C36_variable_partial",
    "Pyclib.C36_function_partial",
    "Pyclib.C36_counterexample_conv",
    "Pyclib.C36_counterexample_value"
   ],
   "note": "All declarator lists within the C32 fragment; a calling convention alone in parentheses turns a function into a variable (counterexample)."
  },
  {
   "property": "C37",
   "status": "proved",
   "theorems": [
    "Pyclib.C37_same_object",
    "Pyclib.C37_attr_call"
   ],
   "note": "Backend arbitrary (its objects carry identity); any history of lookups in between."
  },
  {
   "property": "C38",
   "status": "partial",
   "theorems": [
    "Pyclib.C38_history",
    "Pyclib.C38_history_partial",
    "Pyclib.C38_counterexample"
   ],
   "note": "Proved without prefixes for every backend whose results do not depend on its state up to denotation (Stable). With prefixes a lookup gives the fresh result or NameError, and the latter happens (counterexample)."
  },
  {
   "property": "C39",
   "status": "partial",
   "theorems": [
    "Pyclib.C39_precedence_partial",
    "Pyclib.C39_nameError_partial",
    "Pyclib.C39_counterexample",
    "Pyclib.C39_counterexample_void"
   ],
   "note": "Exact on a fresh library if no value and no backend object is None (C38 extends it to any history without prefixes); a variable of unknown value and a typedef of void are skipped (counterexamples)."
  },
  {
   "property": "C40",
   "status": "partial",
   "theorems": [
    "Pyclib.C40_one_per_path",
    "Pyclib.C40_call",
    "Pyclib.C40_counterexample_symlink"
   ],
   "note": "Invariant over all sequences of opens, failed opens and object deaths, per path string; the same file reached through a symbolic link by name and by path gives two objects (counterexample)."
  },
  {
   "property": "C41",
   "status": "proved",
   "theorems": [
    "Pyclib.C41_order",
    "Pyclib.C41_split",
    "Pyclib.C41_unknown"
   ],
   "note": "All signatures with distinct names, all splits and keyword orders; results of ctypes conversion of the arguments are outside."
  },
  {
   "property": "C42",
   "status": "partial",
   "theorems": [
    "Pyclib.C42_exact",
    "Pyclib.C42_raises",
    "Pyclib.C42_auto",
    "Pyclib.C42_counterexample_default"
   ],
   "note": "Exact for signatures without default values, every call that does not pass too many arguments or an argument twice; parameters with default values in front of a keyword are auto-generated although optional (counterexample). C42_raises assumes the types of the signature can be built."
  },
  {
   "property": "C43",
   "status": "partial",
   "theorems": [
    "Pyclib.C43_null",
    "Pyclib.C43_raises",
    "Pyclib.C43_pointer_partial",
    "Pyclib.C43_counterexample_array"
   ],
   "note": "NULL for every declared type ending in *, including function pointers; None for an array parameter passes a zeroed array (counterexample). Same class of calls as C42."
  },
  {
   "property": "C44",
   "status": "partial",
   "theorems": [
    "Pyclib.C44_same",
    "Pyclib.C44_unknown",
    "Pyclib.C44_bad_key",
    "Pyclib.C44_get",
    "Pyclib.C44_iter",
    "Pyclib.C44_assign_partial",
    "Pyclib.C44_visible_partial",
    "Pyclib.C44_counterexample_assign",
    "Pyclib.C44_counterexample_negative"
   ],
   "note": "By name and by position agree everywhere; an assignment is visible except for auto-generated arguments, where the value assigned is dereferenced (counterexample)."
  },
  {
   "property": "C45",
   "status": "partial",
   "theorems": [
    "Pyclib.C45_exclusive",
    "Pyclib.C45_unlocked",
    "Pyclib.C45_call_unlocked",
    "Pyclib.C45_counterexample",
    "Pyclib.C45_counterexample_threads"
   ],
   "note": "Mutual exclusion over all interleavings of any number of threads; but the code names the lock wrongly, so that with lock_calls=True every call raises (counterexample)."
  },
  {
   "property": "C46",
   "status": "partial",
   "theorems": [
    "Pyclib.C46_params",
    "Pyclib.C46_no_parameters",
    "Pyclib.C46_counterexample_typedef",
    "Pyclib.C46_counterexample_convention",
    "Pyclib.C46_counterexample_extra"
   ],
   "note": "Direct void only; a typedef of void, a calling convention and surplus positional arguments are counterexamples."
  },
  {
   "property": "C47",
   "status": "partial",
   "theorems": [
    "Pyclib.C47_mirrors_partial",
    "Pyclib.C47_built_partial",
    "Pyclib.C47_convention",
    "Pyclib.C47_bare_function",
    "Pyclib.C47_bad_array",
    "Pyclib.C47_counterexample_pointer_to_function_pointer",
    "Pyclib.C47_counterexample_typedef_array",
    "Pyclib.C47_counterexample_void_parameter",
    "Pyclib.C47_counterexample_stdcall",
    "Pyclib.C47_counterexample_signed_char"
   ],
   "note": "Soundness in every reachable backend state, and existence of the class with a sufficient recursion depth, for every type in which a function is pointed to exactly once and array brackets do not meet those of a typedef; the code is proved wrong outside. Classes are modelled by structure, ctypes sizes are not modelled."
  },
  {
   "property": "C48",
   "status": "partial",
   "theorems": [
    "Pyclib.C48_repeatable_partial",
    "Pyclib.C48_later_partial",
    "Pyclib.C48_twice_partial",
    "Pyclib.C48_definitions",
    "Pyclib.C48_counterexample",
    "Pyclib.C48_counterexample_second_library"
   ],
   "note": "Proved for types without neighbouring array brackets, at any later time. Multi-dimensional arrays are changed by each request (counterexamples)."
  },
  {
   "property": "C49",
   "status": "partial",
   "theorems": [
    "Pyclib.C49_kept",
    "Pyclib.C49_same_class",
    "Pyclib.C49_distinct",
    "Pyclib.C49_terminates",
    "Pyclib.C49_alias",
    "Pyclib.C49_counterexample"
   ],
   "note": "Access by tag, through typedefs inside types and as member: same class at any time, different tags different classes, recursion bounded. Access to lib('structs', alias) with a typedef alias makes a second class (counterexample)."
  },
  {
   "property": "C50",
   "status": "partial",
   "theorems": [
    "Pyclib.C50_fields_partial",
    "Pyclib.C50_counterexample_bits",
    "Pyclib.C50_counterexample_anonymous",
    "Pyclib.C50_counterexample_padding"
   ],
   "note": "Fields, order, names, types, packing of every finished class in every reachable state. Bit widths are lost, generated names may clash with later members, unnamed bit-fields raise (counterexamples)."
  },
  {
   "property": "C51",
   "status": "partial",
   "theorems": [
    "Pyclib.C51_pointer_partial",
    "Pyclib.C51_counterexample"
   ],
   "note": "Exact equality with the declared class for all one- and two-level pointers except char*, wchar_t* and void* (counterexample)."
  },
  {
   "property": "C52",
   "status": "proved",
   "theorems": [
    "Pyclib.C52_shape",
    "Pyclib.C52_negative"
   ],
   "note": "All shapes and element classes."
  },
  {
   "property": "C53",
   "status": "proved",
   "theorems": [
    "Pyclib.C53_header",
    "Pyclib.C53_library",
    "Pyclib.C53_parser",
    "Pyclib.C53_linux"
   ],
   "note": "All histories of registrations, searches and changes of the caller's lists, all file systems. Registered directories are those that existed when registered; headers additionally in the standard directories (none on Linux, since the code tests for linux2), libraries additionally by the system search, which is a parameter."
  },
  {
   "property": "C54",
   "status": "partial",
   "theorems": [
    "Pyclib.C54_registered",
    "Pyclib.C54_caller_partial",
    "Pyclib.C54_counterexample",
    "Pyclib.C54_counterexample_stale"
   ],
   "note": "The registered directories never change; a non-empty list passed by the caller is extended in place (counterexamples)."
  },
  {
   "property": "C55",
   "status": "partial",
   "theorems": [
    "Pyclib.C55_pe",
    "Pyclib.C55_other_partial",
    "Pyclib.C55_counterexample"
   ],
   "note": "Exact for every PE image; the two bytes after PE are not looked at, so that some byte strings that are no PE images get an architecture (counterexample)."
  },
  {
   "property": "C56",
   "status": "proved",
   "theorems": [
    "Pyclib.C56_bitness",
    "Pyclib.C56_file",
    "Pyclib.C56_unknown",
    "Pyclib.C56_python",
    "Pyclib.C56_counterexample_name"
   ],
   "note": "With the architecture found by the modelled detection. The detection itself may be misled by the file name on Linux (C56_counterexample_name), which the property does not exclude."
  },
  {
   "property": "C57",
   "status": "proved",
   "theorems": [
    "Pyclib.C57_once",
    "Pyclib.C57_at_most_once",
    "Pyclib.C57_types",
    "Pyclib.C57_fundamental",
    "Pyclib.C57_windows",
    "Pyclib.C57_counterexample_int64"
   ],
   "note": "All sequences of init, auto_init and constructor calls; failures inside the grammar construction are not modelled."
  },
  {
   "property": "C58",
   "status": "partial",
   "theorems": [
    "Pyclib.C58_dollar_partial",
    "Pyclib.C58_example_dollar",
    "Pyclib.C58_counterexample_dollar",
    "Pyclib.C58_declarations_partial",
    "Pyclib.C58_unique",
    "Pyclib.C58_prefix_partial",
    "Pyclib.C58_words",
    "Pyclib.C58_example",
    "Pyclib.C58_example_modifiers",
    "Pyclib.C58_example_literals",
    "Pyclib.C58_example_linkage",
    "Pyclib.C58_counterexample_modifier",
    "Pyclib.C58_counterexample_variadic",
    "Pyclib.C58_counterexample_fnparam",
    "Pyclib.C58_counterexample_inits",
    "Pyclib.C58_counterexample_bitfields",
    "Pyclib.C58_counterexample_underscores",
    "Pyclib.C58_counterexample_rescan",
    "Pyclib.C58_counterexample_attribute",
    "Pyclib.C58_counterexample_packed",
    "Pyclib.C58_counterexample_packed_tag",
    "Pyclib.C58_counterexample_cast",
    "Pyclib.C58_counterexample_paren",
    "Pyclib.C58_counterexample_float",
    "Pyclib.C58_counterexample_enum",
    "Pyclib.C58_counterexample_lists",
    "Pyclib.C58_counterexample_linkage"
   ],
   "note": "For headers in the syntax of Spec/Grammar.lean (with linkage specifications, attributes in front of declarators, casts to named types, string, character and floating literals), by induction on the derivation. Missing from that syntax, and not understood by the code (counterexamples): variadic functions, unnamed function-pointer parameters, several initialisers, several bit-fields in one member declaration, reserved names, an extra modifier in front of a parenthesised declarator, attributes behind declarators and of structs, casts to built-in types, the operator !, a name alone in parentheses, most floating constants, enumerators given by characters, trailing commas, sizeof; also C++ constructs and calls in constant expressions."
  },
  {
   "property": "C59",
   "status": "partial",
   "theorems": [
    "Pyclib.C59_texts_partial",
    "Pyclib.C59_blanks_partial",
    "Pyclib.C59_layout_partial",
    "Pyclib.C59_words_partial",
    "Pyclib.C59_example_texts",
    "Pyclib.C59_counterexample_sign"
   ],
   "note": "For every text (C59_texts_partial): two texts that differ in white space between tokens record the same definitions or raise the same error, where the white space between a number and a sign behind ) or : is kept; C59_counterexample_sign shows that this is needed. What pyparsing makes of a struct without braces is assumed to be independent of layout. For the headers of C58 the layout theorems relate texts by their tokens."
  },
  {
   "property": "C60",
   "status": "proved",
   "theorems": [
    "Pyclib.C60_finishes",
    "Pyclib.C60_nesting",
    "Pyclib.C60_loops",
    "Pyclib.C60_progress",
    "Pyclib.C58_prefix_partial",
    "Pyclib.C60_counterexample_empty"
   ],
   "note": "For all texts, with extra types and modifiers that are words; an empty string among them makes a loop stand still (C60_counterexample_empty). Running time and the Python recursion limit are not modelled."
  },
  {
   "property": "C61",
   "status": "partial",
   "theorems": [
    "Pyclib.C61_declaration_partial",
    "Pyclib.C61_typedef_partial",
    "Pyclib.C61_function_partial"
   ],
   "note": "For the headers of C58 and the declarators of C32/C36."
  },
  {
   "property": "C62",
   "status": "partial",
   "theorems": [
    "Pyclib.C62_value_partial",
    "Pyclib.C62_declaration_partial",
    "Pyclib.C62_enum_partial",
    "Pyclib.C62_counterexample_octal",
    "Pyclib.C62_counterexample_parens",
    "Pyclib.C62_counterexample_name",
    "Pyclib.C62_counterexample_mod",
    "Pyclib.C62_counterexample_suffix",
    "Pyclib.C62_counterexample_precedence",
    "Pyclib.C62_counterexample_chain",
    "Pyclib.C62_counterexample_logic",
    "Pyclib.C62_counterexample_division",
    "Pyclib.C62_counterexample_keyword"
   ],
   "note": "Full statement: all constant expressions of C. Proved for decimal and hexadecimal literals with upper-case suffixes, names, unary + - ~, binary | ^ & << >> + - *, % of nonnegative numbers, comparisons (in parentheses where they are operands of comparisons or of | ^ &), parentheses. Outside: division, chains of comparisons, comparisons within | ^ & without parentheses, logical operators, octal and character literals, lower-case suffixes, a name alone in parentheses (taken for a cast), names with a digit followed by one of U L e E x X, names that are Python keywords (counterexamples for most)."
  },
  {
   "property": "C63",
   "status": "partial",
   "theorems": [
    "Pyclib.C63_environment_partial",
    "Pyclib.C63_tokens",
    "Pyclib.C63_counterexample_call",
    "Pyclib.C63_counterexample_name"
   ],
   "note": "For the expressions of C62 and for all texts of integer arithmetic and comparisons over recorded names; calls and unknown names are left to the Python process (counterexamples)."
  },
  {
   "property": "C64",
   "status": "partial",
   "theorems": [
    "Pyclib.C64_file_partial",
    "Pyclib.C64_files_partial",
    "Pyclib.C64_example",
    "Pyclib.C64_counterexample_comment",
    "Pyclib.C64_counterexample_line",
    "Pyclib.C64_counterexample_skipped"
   ],
   "note": "Full statement: all headers of C. The reading of C is Spec/File FileMeans: comments next to white space, no continuation inside a comment mark, conditionals and macros by the semantics of C17/C30 and of the expansion (C23-C29 relate it to C), pack pragmas used so that pyclibrary follows the documentation, declarations of Spec/Grammar (C58). Counterexamples: comment between two words, struct on the line before a pragma, skipped #define before a pragma."
  },
  {
   "property": "C65",
   "status": "partial",
   "theorems": [
    "Pyclib.C65_value_partial",
    "Pyclib.C65_counterexample_order",
    "Pyclib.C65_counterexample_redefine",
    "Pyclib.C65_counterexample_enum"
   ],
   "note": "For the constant expressions of C62. Counterexamples: a macro defined before the one it mentions, a redefinition, an enumerator of the same file."
  },
  {
   "property": "C66",
   "status": "proved",
   "theorems": [
    "Pyclib.C66_file",
    "Pyclib.C66_files",
    "Pyclib.C66_history",
    "Pyclib.C66_find",
    "Pyclib.C66_undef_value",
    "Pyclib.C66_basename"
   ],
   "note": "For all texts. An exception ends process_all; the tables after an exception are not described."
  },
  {
   "property": "C67",
   "status": "proved",
   "theorems": [
    "Pyclib.C67_defined",
    "Pyclib.C67_again",
    "Pyclib.C67_example"
   ],
   "note": "Body: any well nested conditional text without #undef of the guard; blank lines or comments around the guard."
  },
  {
   "property": "C68",
   "status": "partial",
   "theorems": [
    "Pyclib.C68_reload_partial",
    "Pyclib.C68_second_run_partial",
    "Pyclib.C68_safe",
    "Pyclib.C68_example",
    "Pyclib.C68_counterexample_undef",
    "Pyclib.C68_counterexample_kwargs",
    "Pyclib.C68_counterexample_basename"
   ],
   "note": "For all texts in which no #undef names a macro of another file or a keyword argument, and files with different base names (CacheSafe, on the lines as preprocess reads them); outside, the claim is false (counterexamples)."
  },
  {
   "property": "C69",
   "status": "proved",
   "theorems": [
    "Pyclib.C69_parse",
    "Pyclib.C69_file",
    "Pyclib.C69_files",
    "Pyclib.C69_empty",
    "Pyclib.C69_macros",
    "Pyclib.C69_tags",
    "Pyclib.C69_enums",
    "Pyclib.C69_types",
    "Pyclib.C69_resolve",
    "Pyclib.C69_example",
    "Pyclib.C69_counterexample_unnamed"
   ],
   "note": "For all texts. The name of the type of an unnamed member is left open: with a qualifier in front it is the qualifier (C69_counterexample_unnamed). What stands for a struct, union or enum whose processing failed (the text of the parse result) is a parameter of the model (junk)."
  },
  {
   "property": "C70",
   "status": "partial",
   "theorems": [
    "Pyclib.C70_denotes",
    "Pyclib.C70_class_partial",
    "Pyclib.C70_start",
    "Pyclib.C70_next",
    "Pyclib.C70_typedef_partial",
    "Pyclib.C70_fields_partial",
    "Pyclib.C70_files_partial",
    "Pyclib.C70_declaration_partial",
    "Pyclib.C70_example"
   ],
   "note": "For definitions that meet LibOk: the shapes of types on which C47 holds, and members whose types can be built. Outside, the claim is false by the counterexamples of C47, C48 and C50. C70_declaration_partial: the last declaration of a header of the grammar of C58."
  },
  {
   "property": "C71",
   "status": "partial",
   "theorems": [
    "Pyclib.C71_scalar_partial",
    "Pyclib.C71_get_partial",
    "Pyclib.C71_unique",
    "Pyclib.C71_supported",
    "Pyclib.C71_usual",
    "Pyclib.C71_counterexample_spelling",
    "Pyclib.C71_counterexample_signed_char"
   ],
   "note": "For every spelling other than of signed char: the right class or KeyError (C71_get_partial). Counterexamples: spellings without an entry; signed char gets c_char."
  },
  {
   "property": "C72",
   "status": "partial",
   "theorems": [
    "Pyclib.C72_wrap_partial",
    "Pyclib.C72_call_partial",
    "Pyclib.C72_declaration_partial",
    "Pyclib.C72_example",
    "Pyclib.C72_example_call",
    "Pyclib.C72_counterexample_char"
   ],
   "note": "For definitions that meet LibOk and AskOk (the shapes on which C47/C70 hold), no calling convention in the result type. For an omitted char *, wchar_t * or void * argument the class is a pointer to the class of the parameter (C72_counterexample_char); for every other type it mirrors the parameter."
  },
  {
   "property": "C73",
   "status": "partial",
   "theorems": [
    "Pyclib.C73_session_partial",
    "Pyclib.C73_classes_partial",
    "Pyclib.C73_files_partial",
    "Pyclib.C73_unique",
    "Pyclib.C73_example",
    "Pyclib.C73_counterexample_alias",
    "Pyclib.C39_counterexample_void"
   ],
   "note": "For definitions that meet LibOk, lookups of usable definitions (AskOk types, no calling convention in the result), no prefixes, and no typedef name where a tag is expected (C73_counterexample_alias). The result of each lookup is compared with Spec/Library Gives, whose C types are unique (C73_unique)."
  },
  {
   "property": "C74",
   "status": "partial",
   "theorems": [
    "Pyclib.C74_session_partial",
    "Pyclib.C74_files_partial",
    "Pyclib.C74_check",
    "Pyclib.C74_checked",
    "Pyclib.C74_example",
    "Pyclib.C74_example_ctypes_test",
    "Pyclib.C74_counterexample_argtype",
    "Pyclib.C72_counterexample_char"
   ],
   "note": "For definitions that meet LibOk, functions without default values and with distinct parameter names, calls with known keywords and not too many arguments, lock_calls=False, None and arg_c_type only for parameters whose types can be asked for repeatedly (C74_counterexample_argtype). The class of a generated object is that of C72 (AutoOk; C72_counterexample_char for char *). C74_check: computable tests that imply these conditions; C74_example_ctypes_test: they hold for tests/headers/ctypes_test.h."
  },
  {
   "property": "C75",
   "status": "partial",
   "theorems": [
    "Pyclib.C75_outputs_partial",
    "Pyclib.C75_files_partial",
    "Pyclib.C75_example",
    "Pyclib.C75_counterexample_value",
    "Pyclib.C75_counterexample_docs",
    "Pyclib.C72_counterexample_char"
   ],
   "note": "For definitions that meet LibOk, the calls of C74, omitted parameters other than char *, wchar_t *, void * (C72_counterexample_char), and types that are not structs with a member value (C75_counterexample_value) or character arrays. Memory consists of blocks with arbitrary contents, the C function is arbitrary; the conversion of contents to Python values and the acceptance of arguments by ctypes are not modelled."
  },
  {
   "property": "C76",
   "status": "partial",
   "theorems": [
    "Pyclib.C76_layout_partial",
    "Pyclib.C76_files_partial",
    "Pyclib.C76_example",
    "Pyclib.C76_example_pack",
    "Pyclib.C76_counterexample_open",
    "Pyclib.C76_counterexample_bits",
    "Pyclib.C76_counterexample_pack"
   ],
   "note": "For definitions that meet LibOk, uses as in C74, tags that are not both struct and union (as in C), types without bit-fields, arrays without length and default values; the packing is the one the parser recorded (right except for the line of C21). Counterexamples: array without length at the end of a struct, bit-fields, struct on the line before a pack pragma. The computation of layouts by ctypes (CPython) is modelled, not taken from /repo."
  },
  {
   "property": "C77",
   "status": "partial",
   "theorems": [
    "Pyclib.C77_lookups_partial",
    "Pyclib.C77_uses_partial",
    "Pyclib.C77_files_partial",
    "Pyclib.C77_example",
    "Pyclib.C77_counterexample_overlap",
    "Pyclib.C38_counterexample"
   ],
   "note": "For names of which one completion is defined, no defined name being another one of its kind with a prefix in front (C77_counterexample_overlap), and lib(kind, name) with full names only (C38_counterexample: with an abbreviated name it raises NameError once the full name was looked up)."
  },
  {
   "property": "C78",
   "status": "partial",
   "theorems": [
    "Pyclib.C78_second_run_partial",
    "Pyclib.C78_reload_partial",
    "Pyclib.C78_example",
    "Pyclib.C78_example_value",
    "Pyclib.C78_counterexample_basename"
   ],
   "note": "For headers within CacheSafe (C68), macros as keyword arguments, and definitions and uses as in C74. The right outcome (UseRight) is stated for the definitions of the freshly parsed headers. C78_counterexample_basename: files of equal base name in different directories."
  },
  {
   "property": "C79",
   "status": "partial",
   "theorems": [
    "Pyclib.C79_effect_partial",
    "Pyclib.C79_order_partial",
    "Pyclib.C79_fresh_partial",
    "Pyclib.C79_values",
    "Pyclib.C79_example",
    "Pyclib.C79_anonymous_counterexample"
   ],
   "note": "For headers in the C subset of C58; which names matter is given by a scope that covers the tokens (Covers; coversB checks it). Structs, unions and enums without tag share one numbering: two headers with such structs depend on their order (C79_anonymous_counterexample). Values: for expressions outside the modelled part of Python's eval, the interpreter is assumed to look up only words of the expression (PyWords). On the texts after preprocessing; macros shared by headers are not covered."
  },
  {
   "property": "C80",
   "status": "proved",
   "theorems": [
    "Pyclib.C80_causes",
    "Pyclib.C80_never",
    "Pyclib.C80_raises",
    "Pyclib.C80_files",
    "Pyclib.C80_example",
    "Pyclib.C80_typedef_counterexample"
   ],
   "note": "For all texts, provided no configured extra type or modifier is the empty word. Cause (4) is a necessary condition; C80_typedef_counterexample: a convention alone in front of a parenthesis does raise. Reading files, recursion limits, exceptions inside pyparsing, and exceptions that are not subclasses of Exception (exit(1) as a constant expression ends the process, C63) are outside the model."
  },
  {
   "property": "C81",
   "status": "proved",
   "theorems": [
    "Pyclib.C81_parse",
    "Pyclib.C81_file",
    "Pyclib.C81_example"
   ],
   "note": "For all texts, provided no configured extra type or modifier is the empty word. C81_file describes files that are processed without an exception; C81_parse also holds when one is raised."
  },
  {
   "property": "C82",
   "status": "partial",
   "theorems": [
    "Pyclib.C82_read",
    "Pyclib.C82_same",
    "Pyclib.C82_files",
    "Pyclib.C82_example",
    "Pyclib.C82_counterexample_pack",
    "Pyclib.C82_counterexample_conv"
   ],
   "note": "For definitions in printable ASCII whose values and array lengths are known to the model (integers, None, lists of integers), without calling conventions (counterexample) and other than packed structs without members (counterexample). Evaluation of Python expressions is specified by Spec/Repr pyRead."
  },
  {
   "property": "C83",
   "status": "proved",
   "theorems": [
    "Pyclib.C83_exact",
    "Pyclib.C83_order",
    "Pyclib.C83_missing",
    "Pyclib.C83_example"
   ],
   "note": "For all texts. After process_all the texts held are the preprocessed ones."
  },
  {
   "property": "C84",
   "status": "proved",
   "theorems": [
    "Pyclib.C84_given",
    "Pyclib.C84_called",
    "Pyclib.C84_reached",
    "Pyclib.C84_error",
    "Pyclib.C84_defaults_unused"
   ],
   "note": "For all calls; keys of a keyword dictionary are distinct. The C function is modelled as reached with a list of arguments; ctypes then rejects fewer arguments than argtypes."
  },
  {
   "property": "C85",
   "status": "proved",
   "theorems": [
    "Pyclib.C85_parse",
    "Pyclib.C85_file",
    "Pyclib.C85_files",
    "Pyclib.C85_order",
    "Pyclib.C85_example"
   ],
   "note": "The names a header depends on (FileReads) are described by the lines and the preprocessed text. PyWords: the Python interpreter outside the modelled fragment of expressions looks up only names that are words of the expression. MacOk: the macro tables contain what #define records. C85_counterexample_literal: the last character of a word behind a string literal is looked up as a macro."
  },
  {
   "property": "C86",
   "status": "proved",
   "theorems": [
    "Pyclib.C86_enums",
    "Pyclib.C86_compounds",
    "Pyclib.C86_example"
   ],
   "note": "For libraries without prefixes (C38_counterexample) and tags made of word characters other than signed (the name is removed by Type.eval). A typedef of a pointer to the enum counts as well: only the base name is looked at."
  },
  {
   "property": "C87",
   "status": "proved",
   "theorems": [
    "Pyclib.C87_string",
    "Pyclib.C87_float",
    "Pyclib.C87_declaration_string",
    "Pyclib.C87_declaration_float",
    "Pyclib.C87_example",
    "Pyclib.C87_counterexample_digits",
    "Pyclib.C87_counterexample_suffix",
    "Pyclib.C87_counterexample_char",
    "Pyclib.C87_counterexample_enum"
   ],
   "note": "Rounding to the nearest double is not modelled: a float value is the rational number that is rounded. Macros: the text of the directive after expansion, as C65. Outside the statement: escapes in strings (left to Python), suffixes, more than one digit in front of the point in initialisers, character constants (counterexamples)."
  },
  {
   "property": "C88",
   "status": "partial",
   "theorems": [
    "Pyclib.C88_replace_partial",
    "Pyclib.C88_unique",
    "Pyclib.C88_absent",
    "Pyclib.C88_escape",
    "Pyclib.C88_newlines",
    "Pyclib.C88_example",
    "Pyclib.C88_counterexample_special",
    "Pyclib.C88_counterexample_exchange",
    "Pyclib.C88_counterexample_regex"
   ],
   "note": "Proved for strings without the special characters of regular expressions and replacements without backslashes, and for any single string escaped with re.escape. The strings are in fact regular expressions (counterexamples), and later entries see the result of earlier ones."
  },
  {
   "property": "C89",
   "status": "partial",
   "theorems": [
    "Pyclib.C89_class_partial",
    "Pyclib.C89_name_partial",
    "Pyclib.C89_files_partial",
    "Pyclib.C89_too_many",
    "Pyclib.C89_zero",
    "Pyclib.C89_example",
    "Pyclib.C89_texts",
    "Pyclib.C89_lists_counterexample",
    "Pyclib.C89_star_counterexample",
    "Pyclib.C89_signs",
    "Pyclib.C89_signs_table",
    "Pyclib.C89_signs_example"
   ],
   "note": "Proved for every header within the conditions of C74 (LibOk), after any fair uses, for element types made of integers, enums, structs, unions (first member) and arrays, with any dimensions, and values nested as tuples. Nested lists, which the documentation suggests, raise TypeError (counterexample). Other classes (floats, pointers) are converted by a parameter; little-endian."
  },
  {
   "property": "C90",
   "status": "partial",
   "theorems": [
    "Pyclib.C90_calls_partial",
    "Pyclib.C90_files_partial",
    "Pyclib.C90_example",
    "Pyclib.C90_texts",
    "Pyclib.C90_char_counterexample"
   ],
   "note": "Proved for every header within the conditions of C74 (LibOk), after any fair uses, for any memory and any C function: integers given, bytes objects, NULL, objects and arrays given by value or for a pointer, omitted pointers, the result. Function pointers, floats, str and other objects are converted by a parameter (ctypes); the theorem says that an error for an object given comes from there. Omitting a char * argument always raises (counterexample). ArgumentError of ctypes is modelled as TypeError; little-endian."
  },
  {
   "property": "C91",
   "status": "partial",
   "theorems": [
    "Pyclib.C91_class_partial",
    "Pyclib.C91_name_partial",
    "Pyclib.C91_files_partial",
    "Pyclib.C91_twice",
    "Pyclib.C91_objects",
    "Pyclib.C91_example",
    "Pyclib.C91_texts",
    "Pyclib.C91_counterexample"
   ],
   "note": "Proved for every header within the conditions of C74 (LibOk), after any fair uses, for arrays, pointers and None, and what is read through the pointer are integers. Structs and other objects always raise, and type strings with a star raise (counterexamples; the documentation promises the address of any object and speaks of type strings). Integers, bytes and strings as addresses are a parameter."
  },
  {
   "property": "C92",
   "status": "partial",
   "theorems": [
    "Pyclib.C92_file_partial",
    "Pyclib.C92_all_partial",
    "Pyclib.C92_plain_partial",
    "Pyclib.C92_pack_partial",
    "Pyclib.C92_example",
    "Pyclib.C92_pack_example",
    "Pyclib.C92_counterexample_call"
   ],
   "note": "Proved for all files, tables and macros (conditionals, guards, #define, #undef, other directives; errors too): where the runs of text between the directives, after replacement of macros in every table with an invariant property, are related by Respaced (C59), the tables or the error are the same; C92_all_partial for the whole list of files, C92_plain_partial with conditions on the texts alone for text that does not use macros. C92_pack_partial adds #pragma pack of all kinds: the packings of all structures are the same too, where an empty line precedes each pragma in both layouts and no line is dropped (both needed: C64_counterexample_line, C64_counterexample_skipped). Missing: calls of function-like macros on several lines (C92_counterexample_call), comments with no white space beside them (C64_counterexample_comment), and the conditions of C59 on signs before numbers. Text run by run must not begin with a digit, point or sign or end with a backslash."
  },
  {
   "property": "C93",
   "status": "partial",
   "theorems": [
    "Pyclib.C93_line_partial",
    "Pyclib.C93_file_partial",
    "Pyclib.C93_all_partial",
    "Pyclib.C93_example",
    "Pyclib.C93_counterexample_string",
    "Pyclib.C93_counterexample_later"
   ],
   "note": "Proved for all files, tables and macros (guards, conditionals, pragmas, skipped lines, errors too): the results of process_all are equal, not merely similar. Calls as in C26 (no brackets or commas nested in arguments, no braces in bodies). Missing: uses behind a string literal in the same line, which pyclibrary does not replace (C93_counterexample_string), and macros whose replacement text names a macro defined later (C93_counterexample_later): there the written out line still contains a name of a macro."
  },
  {
   "property": "C94",
   "status": "partial",
   "theorems": [
    "Pyclib.C94_file_partial",
    "Pyclib.C94_all_partial",
    "Pyclib.C94_layout_partial",
    "Pyclib.C94_example",
    "Pyclib.C94_counterexample_string"
   ],
   "note": "Proved for all files, tables and setups in the model with the expansion of tabs (processFileTab). Missing: tabs in literals, where the values do change (C94_counterexample_string); tabs inside the value of a macro (its recorded text then has blanks, which no theorem covers); headers in which a macro has the name of a parameter of another macro."
  },
  {
   "property": "C95",
   "status": "partial",
   "theorems": [
    "Pyclib.C95_read",
    "Pyclib.C95_same_partial",
    "Pyclib.C95_raises",
    "Pyclib.C95_call_partial",
    "Pyclib.C95_raised",
    "Pyclib.C95_files_partial",
    "Pyclib.C95_example",
    "Pyclib.C95_counterexample_call",
    "Pyclib.C95_counterexample_result",
    "Pyclib.C95_counterexample_quals"
   ],
   "note": "For all functions, arguments and C functions. Missing: results that point to arrays or functions, for which the claim is false (C95_counterexample_call, _result); qualifiers of the result (C95_counterexample_quals) and default values are not shown; a parameter named None cannot be told from one without a name; types are restricted to those that repr shows readably (C82)."
  },
  {
   "property": "C96",
   "status": "proved",
   "theorems": [
    "Pyclib.C96_parse",
    "Pyclib.C96_parse_enum",
    "Pyclib.C96_file",
    "Pyclib.C96_files",
    "Pyclib.C96_complete",
    "Pyclib.C96_enums",
    "Pyclib.C96_example",
    "Pyclib.C96_counterexample_enum"
   ],
   "note": "For all texts, tables and files (TablesWf is not needed); the only conditions are that no extra type and no extra modifier is the empty string. The same rule makes a mention of an enum in front of its definition hide the definition for good (C96_counterexample_enum, see DESIGN.md section 5)."
  },
  {
   "property": "C97",
   "status": "partial",
   "theorems": [
    "Pyclib.C97_split_partial",
    "Pyclib.C97_pragma_partial",
    "Pyclib.C97_example",
    "Pyclib.C97_pragma_example",
    "Pyclib.C97_counterexample_value",
    "Pyclib.C97_counterexample_pack",
    "Pyclib.C97_counterexample_line",
    "Pyclib.C97_counterexample_dropped"
   ],
   "note": "For every second part, whatever its text, if its macros are apart from the first part: they neither use values that the first part declares nor have names of it. C97_split_partial is for second parts without #pragma; C97_pragma_partial allows all pragmas in the second part, except on its first line, where the first part has no pragmas and every line of it is kept. Missing: first parts outside the grammar of C58 and those with #pragma pack or extern C. Without the conditions it is false: a macro that uses an enumerator of the first part has a value only if the files are separate (C97_counterexample_value), a packing in force at the cut is forgotten (C97_counterexample_pack), a pragma at the cut packs the line in front of it (C97_counterexample_line), dropped lines delay packings (C97_counterexample_dropped)."
  },
  {
   "property": "C98",
   "status": "partial",
   "theorems": [
    "Pyclib.C98_lines",
    "Pyclib.C98_file_partial",
    "Pyclib.C98_zero_partial",
    "Pyclib.C98_pragma_partial",
    "Pyclib.C98_if",
    "Pyclib.C98_else",
    "Pyclib.C98_zero",
    "Pyclib.C98_example",
    "Pyclib.C98_lines_example",
    "Pyclib.C98_pragma_example",
    "Pyclib.C98_counterexample_define",
    "Pyclib.C98_counterexample_pack"
   ],
   "note": "For every place where text is skipped (Off; C98_if and C98_else: after a false #if, #ifdef, #ifndef, and after the #else of a true one), with any lines before and after, another branch among them. C98_lines: exactly the same result (tables, packings, text, exceptions) for regions of the same number of lines without definitions and pragmas. C98_file_partial: any well nested lines in the region, of any number, if no #pragma stands outside and the text around it may be moved apart (Loose: no backslash at an end, no number or sign at the beginning of the rest); C98_zero_partial is the case #if 0. C98_pragma_partial: pragmas outside the region too, if there are no definitions and pragmas in it, no line before it is dropped and the first line after it is no pragma. Missing: the other files with pragmas. Without the conditions it is false: a badly written #define raises although skipped (C98_counterexample_define), skipped definitions move packings that follow (C98_counterexample_pack)."
  },
  {
   "property": "C99",
   "status": "partial",
   "theorems": [
    "Pyclib.C99_selected_partial",
    "Pyclib.C99_resolved_partial",
    "Pyclib.C99_pragma_partial",
    "Pyclib.C99_resolved_pragma_partial",
    "Pyclib.C99_example",
    "Pyclib.C99_pragma_example",
    "Pyclib.C99_counterexample_pack",
    "Pyclib.C99_counterexample_after"
   ],
   "note": "C99_selected_partial: any two headers of well nested lines, whatever their conditionals and skipped lines, if the sequences of selected lines agree, none of them is a #pragma, and no selected line begins (after expansion) with a number or sign or ends in a backslash. C99_resolved_partial: the header whose lines are just the chosen ones. C99_pragma_partial and C99_resolved_pragma_partial: the same with pragmas of any kind among the selected lines (packings and exceptions included), if no line of either file is dropped without leaving an empty one and no pragma is selected right after a line of text. Without these conditions it is false (C99_counterexample_pack: skipped definitions are dropped; C99_counterexample_after: a packing reaches back to the line before it). Missing: lines that begin with a number or sign."
  }
 ]
}