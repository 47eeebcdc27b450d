{"id": "C01", "title": "Typedef resolution is total and exact", "statement": "Type.eval(type_map) (and CParser.eval_type) always finishes: it returns a type exactly when the chain of typedef names starting at the type reaches a fundamental type, and raises DefinitionError exactly when the chain is cyclic or hits an unknown name; the returned type is the one obtained by splicing each typedef's modifiers in front of the modifiers of the type that mentions it.", "quantifier": "every type map (including cyclic, self-referential and incomplete ones) and every type", "why_tests_cant": "Cycles of any length and chains of any depth are possible; tests try one 3-cycle and chains of depth 2.", "anchors": ["pyclibrary/c_parser.py: Type.eval, Type.is_fund_type", "pyclibrary/c_parser.py: CParser.eval_type"]}
{"id": "C02", "title": "Resolved types are fundamental and stable", "statement": "The type returned by eval_type is itself fundamental and resolving it again (with any type map) returns it unchanged.", "quantifier": "every type map and every type that resolves, for the specifiers the parser itself produces", "why_tests_cant": "Idempotence has to hold after any chain of typedefs; a test only sees chosen chains.", "anchors": ["pyclibrary/c_parser.py: Type.eval"]}
{"id": "C03", "title": "One qualifier group per type level", "statement": "Every Type the parser builds from a declaration, and every Type obtained from it by typedef resolution or by the function compatibility conversion, carries exactly one qualifier group for the base type plus one per modifier, so building it never raises 'wrong number of type qualifiers'.", "quantifier": "every declarator tree (any nesting of pointers, arrays, argument lists, parentheses, calling conventions) and every typedef chain", "why_tests_cant": "The tree is recursive; tests cover a handful of shapes.", "anchors": ["pyclibrary/c_parser.py: Type.__init__, Type.eval, Type.add_compatibility_hack", "pyclibrary/c_parser.py: CParser.process_declarator, process_type"]}
{"id": "C04", "title": "Function compatibility conversion is invertible", "statement": "For every function type t, remove_compatibility_hack(add_compatibility_hack(t)) equals t, and both conversions leave every non-function type unchanged.", "quantifier": "every type the parser can produce, including its qualifiers", "why_tests_cant": "Quantifies over all types; qualifiers are only compared in one test.", "anchors": ["pyclibrary/c_parser.py: Type.add_compatibility_hack, Type.remove_compatibility_hack"]}
{"id": "C05", "title": "Definition tables behave like last-write-wins maps", "statement": "After any history of definitions, removals and file switches, looking up (kind, name) in parser.defs yields the value of the most recent definition of that (kind, name) not followed by a removal, and adding or removing one (kind, name) never changes any other entry.", "quantifier": "every sequence of add_def / rem_def / change of current file, of any length", "why_tests_cant": "Histories are unbounded.", "anchors": ["pyclibrary/c_parser.py: CParser.add_def, CParser.rem_def"]}
{"id": "C06", "title": "Every visible definition is attributed to a file", "statement": "At every point of every history, each entry of parser.defs is also present, with the same value, in parser.file_defs under at least one file, so that copying or caching file_defs does not lose a visible definition.", "quantifier": "every sequence of definitions, removals, file switches and imports", "why_tests_cant": "Invariant over unbounded histories and over removals made from a different file than the definition.", "anchors": ["pyclibrary/c_parser.py: CParser.add_def, rem_def, import_dict"]}
{"id": "C07", "title": "find() is sound and complete", "statement": "parser.find(name) returns exactly one (file, kind) pair for each file and kind in which name is currently recorded, and a name visible in parser.defs is always found.", "quantifier": "every history of the parser and every name", "why_tests_cant": "Quantifies over all reachable tables.", "anchors": ["pyclibrary/c_parser.py: CParser.find"]}
{"id": "C08", "title": "copy_from imports everything, last file wins", "statement": "Importing another parser's definitions makes every (kind, name) recorded there visible, with the value recorded in the last file (in recording order) that has it; entries not recorded there are untouched; file attribution is preserved.", "quantifier": "every pair of parsers", "why_tests_cant": "Quantifies over all definition sets and overlaps.", "anchors": ["pyclibrary/c_parser.py: CParser.import_dict, CParser.__init__ (copy_from)"]}
{"id": "C09", "title": "Importing twice changes nothing more", "statement": "Importing the same definitions a second time leaves every visible definition and every per-file record as after the first import.", "quantifier": "every parser state and every imported definition set", "why_tests_cant": "All overlaps and orders of files.", "anchors": ["pyclibrary/c_parser.py: CParser.import_dict"]}
{"id": "C10", "title": "Cache round trip", "statement": "Writing the cache and loading it in a fresh parser gives the same visible definitions (parser.defs) as the parser that wrote it.", "quantifier": "every parsing history, including names defined in several files and names removed with #undef", "why_tests_cant": "Needs every interleaving of definitions/removals over files.", "anchors": ["pyclibrary/c_parser.py: CParser.write_cache, load_cache, import_dict, rem_def"]}
{"id": "C11", "title": "Stale caches are never used", "statement": "With validity checking on, if any existing source file is newer than the cache file the cache is rejected and the parser's definitions are left untouched.", "quantifier": "every file system state, list of source files and cache content", "why_tests_cant": "All combinations of modification times and file sets.", "anchors": ["pyclibrary/c_parser.py: CParser.load_cache"]}
{"id": "C12", "title": "Caches made with other options or an older format are never used", "statement": "With validity checking on, a cache is used only if its recorded options equal the parser's options and its format version is not older than the library's; options recorded cover all constructor arguments that influence the result.", "quantifier": "every cache content and every constructor argument combination", "why_tests_cant": "All argument combinations.", "anchors": ["pyclibrary/c_parser.py: CParser.load_cache, CParser.__init__ (init_opts), load_file"]}
{"id": "C13", "title": "A rejected cache leaves no trace", "statement": "When load_cache returns False (or the cache is unreadable or malformed) the parser's definitions are exactly what they were before the call.", "quantifier": "every cache file content, including truncated or malformed ones", "why_tests_cant": "Every malformation point inside the cached structure is a crash point.", "anchors": ["pyclibrary/c_parser.py: CParser.load_cache, import_dict"]}
{"id": "C14", "title": "process_all uses the cache exactly when it is acceptable", "statement": "process_all(cache) skips parsing exactly when load_cache accepts the cache; otherwise it parses every file in load order, once each, and (if a cache path was given) writes a cache that a parser with the same options then accepts as long as no source becomes newer.", "quantifier": "every file system, option set and list of files", "why_tests_cant": "All states of cache and sources.", "anchors": ["pyclibrary/c_parser.py: CParser.process_all, load_cache, write_cache"]}
{"id": "C15", "title": "Comment removal keeps code and strings exactly", "statement": "For every text made of code, string/character literals, block comments and line comments, remove_comments deletes exactly the comments: all code and all literals (including comment markers inside literals) come out verbatim and in order.", "quantifier": "every sequence of such segments, of any length and content", "why_tests_cant": "All interleavings of quotes, escapes and comment markers.", "anchors": ["pyclibrary/c_parser.py: CParser.remove_comments"]}
{"id": "C16", "title": "Line continuation joining", "statement": "Before directives are interpreted every backslash-newline pair is deleted and nothing else is changed.", "quantifier": "every text", "why_tests_cant": "All texts.", "anchors": ["pyclibrary/c_parser.py: CParser.preprocess (join)"]}
{"id": "C17", "title": "Conditional compilation selects exactly the right lines", "statement": "For any well nested arrangement of #if/#ifdef/#ifndef/#elif/#else/#endif, of any depth, with macros defined and undefined along the way, the text kept and the macro table after preprocessing are exactly those of the branches C selects: in each chain the first branch whose condition holds (given the macros defined so far), else the #else branch; nothing in a skipped branch has any effect.", "quantifier": "every conditional structure, every nesting depth, every outcome of conditions", "why_tests_cant": "Unbounded nesting and state-dependent conditions.", "anchors": ["pyclibrary/c_parser.py: CParser.preprocess"]}
{"id": "C18", "title": "Skipped regions have no effect", "statement": "For any directive sequence, even badly nested, a line is emitted or a macro defined or removed, or packing changed, only when every enclosing conditional is currently true.", "quantifier": "every line sequence", "why_tests_cant": "Invariant over arbitrary sequences of directives.", "anchors": ["pyclibrary/c_parser.py: CParser.preprocess"]}
{"id": "C19", "title": "Unbalanced conditionals", "statement": "Preprocessing raises IndexError for unbalanced conditionals exactly when some #endif/#elif/#else has no open #if before it; missing #endif is tolerated.", "quantifier": "every line sequence", "why_tests_cant": "All placements of unbalanced directives.", "anchors": ["pyclibrary/c_parser.py: CParser.preprocess"]}
{"id": "C20", "title": "Preprocessing preserves line numbers", "statement": "The preprocessed text has one line for each (joined) input line, so line numbers recorded for #pragma pack agree with line numbers of the declarations parsed later.", "quantifier": "every file", "why_tests_cant": "Depends on arbitrary arrangements of directives and inactive regions.", "anchors": ["pyclibrary/c_parser.py: CParser.preprocess, packing_at, process_struct"]}
{"id": "C21", "title": "Packing in force at a struct", "statement": "The packing recorded for a struct is the value set by the last #pragma pack (push/pop included) that precedes it in the file, or None if there is none.", "quantifier": "every sequence of pragmas and structs", "why_tests_cant": "All relative positions of pragmas and structs.", "anchors": ["pyclibrary/c_parser.py: CParser.preprocess (pragma), packing_at, process_struct"]}
{"id": "C22", "title": "#pragma pack push/pop is a stack", "statement": "A push with a value followed by any balanced sequence of pushes and pops and then a pop restores the value pushed before; popping a label restores the state before the push with that label; the number of pops never exceeds the pushes without raising.", "quantifier": "every sequence of pack pragmas", "why_tests_cant": "Unbounded stack histories.", "anchors": ["pyclibrary/c_parser.py: CParser.preprocess (pragma pack)"]}
{"id": "C23", "title": "Text without macro names is unchanged by expansion", "statement": "expand_macros returns the line unchanged whenever no word of the line is the name of an object-like or function-like macro.", "quantifier": "every line and every macro table", "why_tests_cant": "All texts, all tables.", "anchors": ["pyclibrary/c_parser.py: CParser.expand_macros"]}
{"id": "C24", "title": "Macro expansion always terminates", "statement": "expand_macros terminates on every line for every macro table, including self-referential and mutually recursive macros, and does not re-scan replacement text.", "quantifier": "every line and every macro table", "why_tests_cant": "Termination is not testable.", "anchors": ["pyclibrary/c_parser.py: CParser.expand_macros, expand_fn_macro"]}
{"id": "C25", "title": "Object-like macros are replaced word by word, never inside strings", "statement": "In a line each word that names an object-like macro is replaced by its value, every other character is kept, and nothing inside a double-quoted string literal is replaced.", "quantifier": "every line and every table of object-like macros", "why_tests_cant": "All positions of words and string literals.", "anchors": ["pyclibrary/c_parser.py: CParser.expand_macros"]}
{"id": "C26", "title": "Function-like macros substitute arguments simultaneously", "statement": "A call of a function-like macro is replaced by its body with each whole-word occurrence of a parameter (outside string literals) replaced by the corresponding expanded argument; substituted text is not substituted again.", "quantifier": "every macro definition, every argument list", "why_tests_cant": "All bodies, parameter names and arguments, including arguments that contain parameter names.", "anchors": ["pyclibrary/c_parser.py: CParser.compile_fn_macro, expand_fn_macro"]}
{"id": "C27", "title": "Faulty function-macro calls are left untouched", "statement": "If a function-like macro name is not followed by a complete argument list, or has too few arguments, the name is left in place and processing continues after it without raising.", "quantifier": "every line and macro table", "why_tests_cant": "All malformed calls.", "anchors": ["pyclibrary/c_parser.py: CParser.expand_macros, expand_fn_macro"]}
{"id": "C28", "title": "Macro values are fixed when defined", "statement": "The replacement text of a macro is what its body expands to at the point of definition: redefining or undefining other macros later never changes it.", "quantifier": "every sequence of defines and undefs", "why_tests_cant": "Histories of definitions are unbounded.", "anchors": ["pyclibrary/c_parser.py: CParser.preprocess (define), process_macro_defn"]}
{"id": "C29", "title": "#undef makes the macro undefined", "statement": "After '#undef X' the test 'defined X' is false and X is no longer expanded, until X is defined again; removing a macro that is not defined has no effect.", "quantifier": "every history before the #undef", "why_tests_cant": "All histories, object-like and function-like macros, same or different file.", "anchors": ["pyclibrary/c_parser.py: CParser.preprocess (undef), rem_def"]}
{"id": "C30", "title": "'#if' logic agrees with C", "statement": "A #if/#elif condition built from defined(), integer constants, comparisons, !, &&, || and parentheses is true exactly when C says so; identifiers that are not macros count as 0.", "quantifier": "every such expression, of any depth, and every macro table", "why_tests_cant": "Unbounded expressions; operator precedence interactions.", "anchors": ["pyclibrary/c_parser.py: CParser.eval_preprocessor_expr, preprocess (defined)"]}
{"id": "C31", "title": "Condition errors never escape", "statement": "eval_preprocessor_expr returns True or False for every text and never raises; text that is not a valid expression counts as false.", "quantifier": "every text", "why_tests_cant": "All texts.", "anchors": ["pyclibrary/c_parser.py: CParser.eval_preprocessor_expr"]}
{"id": "C32", "title": "Declarators follow C's inside-out rule", "statement": "The modifier list computed for a declaration is the C type read inside-out: for every nesting of pointers, arrays, functions and parentheses, the recorded base + modifiers denote the same C type as the declaration.", "quantifier": "every declarator tree", "why_tests_cant": "Recursive grammar of unbounded depth.", "anchors": ["pyclibrary/c_parser.py: CParser.process_declarator, process_type"]}
{"id": "C33", "title": "Enumerator values follow C", "statement": "Each enumerator without explicit value gets the previous value plus one (the first gets 0), explicit values are used as given, and the value recorded in the enum equals the one recorded in parser.defs['values'].", "quantifier": "every enumerator list", "why_tests_cant": "Lists of any length with any explicit values.", "anchors": ["pyclibrary/c_parser.py: CParser.process_enum"]}
{"id": "C34", "title": "Anonymous names are fresh", "statement": "The name generated for an anonymous enum/struct/union is not the name of an existing enum/struct/union, generation terminates, and recording it never overwrites an existing definition of that kind.", "quantifier": "every table of existing definitions", "why_tests_cant": "All existing tables.", "anchors": ["pyclibrary/c_parser.py: CParser.process_enum, process_struct"]}
{"id": "C35", "title": "Struct definitions are never lost to later mentions", "statement": "Mentioning 'struct X' without a body never changes an existing definition of X; a definition with a body replaces a forward declaration; members are recorded in order, one per declarator, with their bit widths.", "quantifier": "every sequence of struct mentions and definitions", "why_tests_cant": "Histories of mentions.", "anchors": ["pyclibrary/c_parser.py: CParser.process_struct"]}
{"id": "C36", "title": "Prototypes become functions, everything else variables", "statement": "A declaration is recorded under functions exactly when its outermost derivation is a function (not a pointer to function), otherwise under variables and values; a declaration list records one entry per declarator.", "quantifier": "every declaration", "why_tests_cant": "All declarator shapes.", "anchors": ["pyclibrary/c_parser.py: CParser.process_variable, process_function"]}
{"id": "C37", "title": "Repeated lookups return the same object", "statement": "lib(kind, name) and lib.name return, on every later access, the identical object returned by the first successful access, whatever other lookups happen in between.", "quantifier": "every sequence of lookups", "why_tests_cant": "Unbounded lookup histories.", "anchors": ["pyclibrary/c_library.py: CLibrary.__call__, __getattr__, _make_obj_"]}
{"id": "C38", "title": "Lookup does not depend on lookup history", "statement": "Whether lib(kind, name) succeeds, and which definition it denotes, depends only on the headers and prefixes, not on which names were looked up before.", "quantifier": "every sequence of lookups and every prefix list", "why_tests_cant": "Unbounded lookup histories and aliasing through prefixes.", "anchors": ["pyclibrary/c_library.py: CLibrary._make_obj_ (objs cache), __call__"]}
{"id": "C39", "title": "Attribute lookup precedence", "statement": "lib.name finds the name in the order values, functions, types, structs, unions, enums, trying the exact name before each prefix; NameError is raised exactly when no kind has it.", "quantifier": "every set of definitions, prefix list and name", "why_tests_cant": "All overlaps of names among kinds.", "anchors": ["pyclibrary/c_library.py: CLibrary.__getattr__, _all_names_"]}
{"id": "C40", "title": "One live CLibrary per library file", "statement": "As long as a CLibrary for a path is alive, opening the same path again returns that very object; a new object is created only when none is alive.", "quantifier": "every interleaving of opens, drops and garbage collections", "why_tests_cant": "Depends on object lifetimes.", "anchors": ["pyclibrary/c_library.py: CLibraryMeta.__call__"]}
{"id": "C41", "title": "Positional and keyword arguments are equivalent", "statement": "Calling a wrapped function with an argument by keyword passes the C function the same argument list as passing it by position, independent of keyword order; an unknown keyword raises TypeError and nothing is called.", "quantifier": "every signature with distinct parameter names, every split of arguments into positional and keyword", "why_tests_cant": "All splits and orders.", "anchors": ["pyclibrary/c_library.py: CFunction.__call__"]}
{"id": "C42", "title": "Exactly the omitted arguments are auto-generated", "statement": "The arguments PyCLibrary creates are exactly the required ones that the caller omitted and whose type is a one- or two-level pointer; CallResult.auto() returns exactly those, dereferenced; any other omitted required argument raises TypeError and the C function is not called.", "quantifier": "every signature and every call", "why_tests_cant": "All combinations of omitted arguments.", "anchors": ["pyclibrary/c_library.py: CFunction.__call__, CallResult.auto", "pyclibrary/backends/ctypes.py: _get_pointer"]}
{"id": "C43", "title": "None means NULL", "statement": "Passing None passes a NULL pointer of the declared type when the parameter is a pointer and raises TypeError otherwise; it is never auto-generated.", "quantifier": "every signature and position", "why_tests_cant": "All positions and types.", "anchors": ["pyclibrary/c_library.py: CFunction.__call__"]}
{"id": "C44", "title": "CallResult access by name and by index agree", "statement": "result['name'] and result[i] return the same value where i is the position of name in the signature; the iterator yields the return value and then every argument in order; assignment through either is visible through both.", "quantifier": "every signature with distinct names, every call result", "why_tests_cant": "All signatures.", "anchors": ["pyclibrary/c_library.py: CallResult.__getitem__, __setitem__, find_arg, __iter__"]}
{"id": "C45", "title": "lock_calls serialises calls", "statement": "With lock_calls=True every call of the C function happens while the library's lock is held, so no two calls overlap; with lock_calls=False the call just happens.", "quantifier": "every interleaving of calling threads", "why_tests_cant": "Thread schedules.", "anchors": ["pyclibrary/c_library.py: CLibrary.__init__, CFunction.__call__"]}
{"id": "C46", "title": "(void) means no parameters", "statement": "A function declared with (void) or () takes no arguments, and 'void' entries never appear among parameter types; other parameters keep their order and names.", "quantifier": "every signature", "why_tests_cant": "All signatures.", "anchors": ["pyclibrary/c_library.py: CFunction.__init__"]}
{"id": "C47", "title": "ctypes type mirrors the C type", "statement": "The ctypes class built for a type has the structure of the C type: arrays of arrays nest with the first declared dimension outermost, pointers and function pointers wrap what precedes them, char*/wchar_t*/void* use the dedicated ctypes, T[] is treated as a pointer.", "quantifier": "every type", "why_tests_cant": "All modifier sequences.", "anchors": ["pyclibrary/backends/ctypes.py: CTypesCLibrary._get_type"]}
{"id": "C48", "title": "Building a ctypes type is repeatable", "statement": "Asking twice for the ctypes class of the same declared type gives the same class and does not change the parser's definitions.", "quantifier": "every type and every number of repetitions", "why_tests_cant": "Histories of requests.", "anchors": ["pyclibrary/backends/ctypes.py: CTypesCLibrary._get_type"]}
{"id": "C49", "title": "One ctypes class per struct/union", "statement": "All accesses to a struct or union, by tag, through typedef aliases or as member of others, give the same ctypes class, and recursive structs terminate.", "quantifier": "every set of definitions and every access order", "why_tests_cant": "Access histories.", "anchors": ["pyclibrary/backends/ctypes.py: CTypesCLibrary._get_struct", "pyclibrary/c_library.py: _resolve_struct_alias"]}
{"id": "C50", "title": "Struct fields mirror the declaration", "statement": "The ctypes fields are the declared members in order, with declared types, bit widths and packing; anonymous members get generated names distinct from the other members.", "quantifier": "every struct definition", "why_tests_cant": "All member lists.", "anchors": ["pyclibrary/backends/ctypes.py: CTypesCLibrary._get_struct"]}
{"id": "C51", "title": "Auto-generated pointers have the declared type", "statement": "The pointer created for an omitted argument has exactly the ctypes type declared for that parameter.", "quantifier": "every pointer parameter type", "why_tests_cant": "All base types.", "anchors": ["pyclibrary/backends/ctypes.py: CTypesCLibrary._get_pointer, _get_type"]}
{"id": "C52", "title": "build_array shape", "statement": "build_array(lib, T, (d1,...,dn)) builds the type of the C array T x[d1]...[dn].", "quantifier": "every shape", "why_tests_cant": "All dimensions.", "anchors": ["pyclibrary/backends/ctypes.py: CTypesCLibrary._get_array"]}
{"id": "C53", "title": "Header and library search order", "statement": "find_header/find_library return the first existing file searching caller-given directories in order, then registered directories from the most recently registered to the oldest; OSError exactly when there is none.", "quantifier": "every file system and every registration history", "why_tests_cant": "All histories and file systems.", "anchors": ["pyclibrary/utils.py: find_header, find_library, add_header_locations, add_library_locations"]}
{"id": "C54", "title": "Searching does not disturb the caller", "statement": "Searching for a header or library changes neither the registered directories nor the list of directories passed by the caller.", "quantifier": "every sequence of searches", "why_tests_cant": "Histories of searches sharing a list.", "anchors": ["pyclibrary/utils.py: find_header, find_library"]}
{"id": "C55", "title": "PE architecture detection", "statement": "For every byte string that is a PE image (MZ header, e_lfanew pointing to a PE signature) the machine word decides the architecture: I386 gives 32 bit, IA64/AMD64 give 64 bit, anything else is unknown; for every other byte string detection fails without an architecture being reported.", "quantifier": "every byte string", "why_tests_cant": "All byte strings.", "anchors": ["pyclibrary/utils.py: get_shared_library_arch, get_arch, LibraryPath.arch"]}
{"id": "C56", "title": "A library of the wrong bitness is never opened", "statement": "CLibrary(path) raises OSError before loading whenever the detected architectures are known and do not include Python's bitness; unknown architectures are let through.", "quantifier": "every library file and platform", "why_tests_cant": "All detection outcomes.", "anchors": ["pyclibrary/c_library.py: CLibraryMeta.__call__", "pyclibrary/utils.py: LibraryPath.arch"]}
{"id": "C57", "title": "Initialisation happens at most once", "statement": "init/auto_init succeed at most once per process; any later attempt raises RuntimeError and changes no type or modifier table; types given to the successful init are known to both the parser and the ctypes backend.", "quantifier": "every sequence of init/auto_init/constructor calls", "why_tests_cant": "Call histories.", "anchors": ["pyclibrary/init.py: init, auto_init", "pyclibrary/backends/ctypes.py: init_clibrary", "pyclibrary/c_parser.py: _init_cparser"]}
{"id": "C58", "title": "Declarations are read from text as C reads them", "statement": "For every header made of C declarations (typedefs, variables, function prototypes and definitions, structs, unions and enums, nested to any depth, with arbitrary declarators and constant expressions) parsing its text records exactly what the C syntax prescribes, declaration by declaration, and never fails.", "quantifier": "every header and every layout of its text", "why_tests_cant": "Infinitely many nested declarations and texts.", "anchors": ["pyclibrary/c_parser.py: CParser.parse_defs, build_parser, _init_cparser"]}
{"id": "C59", "title": "Layout does not matter", "statement": "Two texts with the same tokens record the same definitions, whatever the blanks, tabs and line breaks between the tokens (apart from the packing in force at each struct).", "quantifier": "every header and every pair of layouts", "why_tests_cant": "All pairs of texts.", "anchors": ["pyclibrary/c_parser.py: CParser.parse_defs, build_parser, packing_at"]}
{"id": "C60", "title": "Parsing always finishes", "statement": "For every text whatsoever, C or not, parsing comes to an end: every successful attempt reads text, and neither the nesting of types, declarators and expressions nor the number of attempts exceeds the length of the text; and what follows a header cannot change how the header is read.", "quantifier": "every text and every definition table", "why_tests_cant": "Non-termination on some text cannot be excluded by running texts.", "anchors": ["pyclibrary/c_parser.py: CParser.parse_defs, build_parser, _init_cparser"]}
{"id": "C61", "title": "A declared name is found under its kind with its C type", "statement": "From text to tables: a name declared by the last declaration of a header is recorded under functions if C says it is a function, under types if it is a typedef and under variables and values otherwise, with a type that denotes its C type; nothing else that was recorded changes.", "quantifier": "every header and every declarator", "why_tests_cant": "All declarators and headers.", "anchors": ["pyclibrary/c_parser.py: CParser.parse_defs, process_variable, process_typedef, process_function, process_declarator, process_type"]}
{"id": "C62", "title": "Constant expressions have the value C gives them", "statement": "An array length, enumerator value, initialiser, bit-field width or macro value that is a constant expression in C syntax, over integer literals (with any suffix), names with known values, the arithmetic, bitwise, shift and comparison operators and parentheses, is evaluated to the value it has in C, however it is laid out; in particular operator precedence, associativity, literal suffixes and references to earlier constants follow C.", "quantifier": "every expression, every table of values and every layout of its text", "why_tests_cant": "Expressions are unbounded trees; a test fixes a few of them and their layout.", "anchors": ["pyclibrary/c_parser.py: CParser.eval_expr, eval, process_enum, process_macro_defn, number"]}
{"id": "C63", "title": "Evaluating a constant depends on the header only", "statement": "The value recorded for a constant expression depends on the text and on the values recorded before it, not on the Python process that parses the header (its variables, modules and built-in functions), and evaluating it has no other effect.", "quantifier": "every expression and every state of the interpreter", "why_tests_cant": "No test can vary the state of the interpreter in all ways.", "anchors": ["pyclibrary/c_parser.py: CParser.eval, eval_expr"]}
{"id": "C64", "title": "A header file defines what C says it defines", "statement": "Parsing a whole header file that is C in every phase (comments removed, continued lines joined, conditionals obeyed, macros expanded, #pragma pack in force as documented, then declarations) raises nothing and leaves the definition tables in exactly the state the C reading gives: every definition of the header, with its type, value and packing, and nothing else. Several files in a row see the macros and types of those before.", "quantifier": "every file text, every state of the parser before it, every list of files", "why_tests_cant": "Tests compare a handful of headers; the composition of all phases over all texts cannot be enumerated.", "anchors": ["pyclibrary/c_parser.py: CParser.process_all, remove_comments, preprocess, parse_defs"]}
{"id": "C65", "title": "A macro that is a constant has the value of its text", "statement": "After #define NAME text, where the text (macros expanded) is a constant expression in C syntax, lib.NAME is the value C gives to that expression, the text of the macro is recorded, and nothing else changes.", "quantifier": "every name, expression, layout and table of values", "why_tests_cant": "Expressions and layouts are unbounded.", "anchors": ["pyclibrary/c_parser.py: CParser.process_macro_defn, eval_expr, preprocess"]}
{"id": "C66", "title": "Parsing a file touches only the record of that file", "statement": "Whatever text a file holds: if parsing it raises nothing, then what is recorded for other files is unchanged, every definition visible afterwards was visible before or is recorded, with the same value, for the base name of this file, and no definition other than a macro disappears. After any files, find(name) lists exactly the files and kinds in which the name is recorded, and finds every visible definition.", "quantifier": "every text (valid C or not), every list of files, every state before", "why_tests_cant": "The text is arbitrary, including malformed text.", "anchors": ["pyclibrary/c_parser.py: CParser.process_all, preprocess, parse_defs, add_def, rem_def, find"]}
{"id": "C67", "title": "Include guards work", "statement": "A header wrapped in #ifndef G / #define G / #endif changes nothing when the guard name is already defined; parsing it twice gives the same tables as parsing it once.", "quantifier": "every guarded header, every state before", "why_tests_cant": "The body of the header is arbitrary.", "anchors": ["pyclibrary/c_parser.py: CParser.preprocess, process_all"]}
{"id": "C68", "title": "A second run on unchanged headers, from the cache, sees the same definitions", "statement": "A CParser processes header files and writes the cache; a second CParser with the same options and files, none modified since, loads the cache, parses nothing, and shows exactly the same definitions of every kind.", "quantifier": "every header text, every list of files with different base names, every set of keyword definitions, every state of the file system", "why_tests_cant": "The headers are arbitrary; the cache holds the record per file, while what users see is the merged table, whose history (redefinitions, #undef) is unbounded.", "anchors": ["pyclibrary/c_parser.py: CParser.process_all, load_cache, write_cache, import_dict, add_def, rem_def"]}
{"id": "C69", "title": "The definition tables are well-formed, whatever the headers", "statement": "After any sequence of header files, valid C or not: each table holds entries of its own kind; a struct, union or enum tag is defined exactly if `struct tag` / `union tag` / `enum tag` is a known type, and that entry leads back to the tag; no recorded type mentions a struct, union or enum that is not in the tables; every recorded type, at every depth of parameter types, has one qualifier group per modifier plus one for the base, so that resolving it never raises ValueError; enumerators are numbers and have, like variables, an entry among the values; names are identifiers and not keywords.", "quantifier": "every text, every list of files, every configuration of extra types and modifiers that are words", "why_tests_cant": "The input is arbitrary text, also text that is not C, where declarations are recognised in the middle of rubbish; a test can only show single headers.", "anchors": ["pyclibrary/c_parser.py: CParser.parse_defs, build_parser, process_declarator, process_type, process_enum, process_struct, process_function, process_variable, process_typedef, add_def, rem_def", "pyclibrary/c_parser.py: Type.__init__, Type.eval"]}
{"id": "C70", "title": "From header text to ctypes classes: every variable, parameter, result and member has the class of its declared C type", "statement": "After processing header files, the ctypes class that CLibrary asks the backend for (for a variable, a function result, a function parameter, or the name of a typedef) exists and mirrors the C type declared in the header, with typedef names replaced by what they were declared as: pointers, arrays with their dimensions in order, function pointers with their parameter and result types, struct and union tags. A finished Structure or Union class has the members of the declaration in order, each with the class of its declared type, and the packing of the declaration.", "quantifier": "every list of header files and every type recorded for it, every order in which the library asks for types (each variable or function once)", "why_tests_cant": "A test fixes one header and compares a few classes; the claim joins parser and backend for every header and every order of access, and the backend changes the parser's definitions while it runs.", "anchors": ["pyclibrary/c_parser.py: CParser.parse_defs, process_declarator, process_type, process_struct, process_typedef", "pyclibrary/backends/ctypes.py: CTypesCLibrary._get_type, _get_struct, _get_array, _get_pointer", "pyclibrary/c_library.py: CLibrary.__call__, CFunction.__init__"]}
{"id": "C71", "title": "Arithmetic types get the ctypes class of their size and signedness", "statement": "A declaration with an arithmetic type, its specifiers written in any order allowed by C and with any white space (unsigned long int, long unsigned int, ...), gets the ctypes class that stands for exactly this C type: never one of another size or signedness; `signed` makes no difference except for char.", "quantifier": "every order and layout of the specifiers of every arithmetic type", "why_tests_cant": "Tests check some spellings; a wrong table entry or a spelling that resolves to the class of another type corrupts memory silently.", "anchors": ["pyclibrary/backends/ctypes.py: init_clibrary, CTypesCLibrary._types_, _get_type", "pyclibrary/c_parser.py: Type.eval"]}
{"id": "C72", "title": "A wrapped C function takes and returns the declared C types, also for arguments the library makes itself", "statement": "A function of a parsed header can be wrapped as CFunction; its parameters are the declared ones in order, without void; restype and every entry of argtypes mirror the declared C types, with typedefs replaced by their meaning. When it is called, each object the caller gave is passed on, None or lib.Null becomes an object of the class of the parameter, and an omitted pointer argument becomes a new object of the class of the parameter.", "quantifier": "every header, every function in it, every state of the backend (any order of earlier accesses), every call with positional and keyword arguments", "why_tests_cant": "Tests wrap a few functions; a wrong class for a generated argument or a shifted argtypes list corrupts memory in the C function, for parameter types and access orders no test covers.", "anchors": ["pyclibrary/c_library.py: CFunction.__init__, CFunction.__call__", "pyclibrary/backends/ctypes.py: CTypesCLibrary._get_type, _get_pointer, _init_function", "pyclibrary/c_parser.py: CParser.process_function"]}
{"id": "C73", "title": "Every object obtained from a library over parsed headers is the right one, whatever was looked up before", "statement": "Open a CLibrary over processed headers and look up names with lib.name and lib(kind, name) in any order and as often as you like, failing lookups included. Each lookup of a function gives a wrapped function whose parameter names are the declared ones and whose argument and result classes mirror the declared C types; a typedef gives the class of its C type; a struct or union tag the class registered for it; values and enumerations what the header defines; lib.name takes the first of values, functions, types, structs, unions, enums that defines the name; a name that is not defined raises NameError, a function the shared library does not export KeyError. Everything returned earlier stays right: the struct and union classes it mentions are those in use at the end, each finished, with the members of the declaration.", "quantifier": "every list of header files, every sequence of lookups of usable definitions", "why_tests_cant": "The library caches objects and changes the parser's tables and the backend's struct table while it works; whether a lookup is right depends on the whole history, and the histories and headers are unbounded.", "anchors": ["pyclibrary/c_library.py: CLibrary.__getattr__, __call__, _make_obj_, _get_function", "pyclibrary/backends/ctypes.py: CTypesCLibrary._get_type, _get_struct, _init_function", "pyclibrary/c_library.py: CFunction.__init__", "pyclibrary/c_parser.py: CParser.process_all"]}
{"id": "C74", "title": "Every call of a wrapped function passes the right arguments, whatever was done with the library before", "statement": "Open a CLibrary over processed headers and mix lookups, calls lib.f(*args, **kws) and lib.f.arg_c_type(k) in any order. Every call reaches the C function with exactly one argument per declared parameter: the object given by keyword or position; for None an object whose class mirrors the declared C type of the parameter; for an omitted argument a newly made object for that parameter, and precisely the indices of the omitted ones are recorded as generated. The only other outcome is a TypeError, when some argument cannot be passed: None for a plain value, or nothing for a parameter that is not a one- or two-level pointer. arg_c_type gives the class of the declared C type, KeyError for an unknown name and IndexError for a position out of range. A function the shared library does not export raises KeyError.", "quantifier": "every list of header files, every sequence of lookups, calls and questions", "why_tests_cant": "A call asks the backend for further classes and so changes the tables that later calls use; whether the n-th call is right depends on all earlier uses, and both the headers and the histories are unbounded.", "anchors": ["pyclibrary/c_library.py: CFunction.__call__, arg_c_type, __init__", "pyclibrary/c_library.py: CLibrary.__getattr__", "pyclibrary/backends/ctypes.py: CTypesCLibrary._get_type, _get_pointer, _init_function", "pyclibrary/c_parser.py: CParser.process_all"]}
{"id": "C75", "title": "What the C function writes through an omitted pointer, and what it returns, is what the caller reads", "statement": "Call a function of a library over parsed headers, leaving out pointer arguments. For each omitted parameter of type w * the C function gets a pointer to a new zero-filled object of type w, no two of them overlapping, and memory the caller already had is unchanged when the C function starts. Whatever the C function then does, result[i], result['name'], tuple unpacking and result.auto() give what it left in that object - a Python value for simple types, the object itself for structs and pointers - and result() is what it returned (None for void). Objects the caller passed are passed on and read back. If the call raises (function not exported, argument missing), the C function has not run.", "quantifier": "every list of header files, every earlier use of the library, every call, every behaviour of the C function and every content of memory", "why_tests_cant": "The C function is arbitrary code that may write any value through any of its arguments; tests use a handful of C functions with fixed effects.", "anchors": ["pyclibrary/c_library.py: CFunction.__call__, CallResult.__call__, __getitem__, __iter__, auto", "pyclibrary/backends/ctypes.py: CTypesCLibrary._extract_val_, _get_pointer, _init_function"]}
{"id": "C76", "title": "Classes have the size, alignment and member offsets of the C types", "statement": "Open a CLibrary over processed headers and use it in any way. Every ctypes class obtained has the sizeof and the alignment of the C type it stands for, and the fields of every Structure and Union class are at the offsets the C compiler gives the members: nested structs and unions, arrays, pointers, typedefs and #pragma pack included - provided only that the simple ctypes classes have the sizes of the simple C types of the platform.", "quantifier": "every list of header files, every use of the library, every C type built from the declarations, every choice of sizes and alignments for the simple types", "why_tests_cant": "A wrong offset silently corrupts memory; tests compare a few structs on the platform they run on, while nesting, packing and the sizes of simple types vary without bound.", "anchors": ["pyclibrary/backends/ctypes.py: CTypesCLibrary._get_struct, _get_type, _get_pointer", "pyclibrary/c_parser.py: CParser.process_struct, packing_at, process_declarator", "pyclibrary/c_library.py: CLibrary.__getattr__, __call__"]}
{"id": "C77", "title": "With a prefix, abbreviated names stand for the full names in every session", "statement": "Open a CLibrary with prefix='my_' (or a list of prefixes) and use it in any way: lookups, calls, questions for argument types, failing ones included. Every use lib.name has exactly the outcome that the full name has in the same session on a library opened without prefix, and the library ends in the same state; in particular the same function is reached with the same arguments, and abbreviated and full name give the same object.", "quantifier": "every backend, every list of headers, every list of prefixes, every sequence of uses", "why_tests_cant": "Prefixes multiply the names under which an object can be cached; whether a lookup hits the right entry depends on all earlier lookups under other spellings.", "anchors": ["pyclibrary/c_library.py: CLibrary._all_names_, __getattr__, __call__, _make_obj_"]}
{"id": "C78", "title": "A library over cached definitions is right for what the headers declare", "statement": "Process header files and write a cache; later a second CParser with the same arguments loads the cache without parsing anything, and a CLibrary is opened over it. Any sequence of lookups, calls and questions for argument types on this library has outcomes that are right for what the header files declare: values, classes, functions with their argument and result types, arguments passed, exceptions; exactly as demanded of a library opened right after parsing.", "quantifier": "every list of header texts (distinct base names, no macro removed by another file), every sequence of uses", "why_tests_cant": "Caching reorders the definition tables and rebuilds them file by file; a difference would show only in the second run of a program, in whichever lookup happens to depend on it.", "anchors": ["pyclibrary/c_parser.py: CParser.load_cache, write_cache, import_dict", "pyclibrary/c_library.py: CLibrary.__getattr__, __call__, CFunction.__call__", "pyclibrary/backends/ctypes.py: _get_type, _get_struct"]}
{"id": "C79", "title": "Declarations that have nothing to do with each other do not influence each other", "statement": "What the declarations of a header record depends only on the values of the names in their constant expressions and on the structs, unions and enums they mention: whatever else the parser has in its tables, the header defines the same things in the same way, and names that do not occur in it keep their definitions. So two headers may be processed in either order, with the same definitions at the end, if neither defines a value or tag the other one uses and no name is defined by both.", "quantifier": "every header in the C subset, every content of the tables before, every pair of such headers", "why_tests_cant": "Users list headers in arbitrary orders and add more over time; tests process fixed lists, so an unrelated header that changes a definition goes unnoticed.", "anchors": ["pyclibrary/c_parser.py: CParser.parse_defs, process_enum, process_struct, process_typedef, process_variable, process_function", "pyclibrary/c_parser.py: CParser.eval_expr, eval, add_def"]}
{"id": "C80", "title": "process_all raises for four reasons only, whatever the headers contain", "statement": "Give CParser.process_all files with any contents: unknown language features, unbalanced braces, half a declaration, bytes of a picture. An Exception (not the SystemExit of a constant expression like exit(1), which is left to Python) can leave it only if (1) an #elif, #else or #endif has no #if (IndexError), (2) a #define or #undef has no name (AttributeError), (3) a #pragma pack pops what was not pushed (IndexError), or (4) the preprocessed text has a typedef and a calling convention (TypeError). (1) and (2) always raise. Otherwise all files are processed.", "quantifier": "every file text, every content of the tables, every list of files, every set of extra types and modifiers", "why_tests_cant": "Headers are arbitrary text and the grammar has a dozen alternatives that are tried at every position; tests cannot show that none of the parse actions raises on some combination.", "anchors": ["pyclibrary/c_parser.py: CParser.process_all, preprocess, parse_defs", "pyclibrary/c_parser.py: CParser.process_declarator, process_type, process_typedef, process_variable, process_function, process_struct, process_enum"]}
{"id": "C81", "title": "process_all never invents definitions", "statement": "Whatever the header files contain, a definition that process_all adds or changes has a name that stands in the file: functions, variables and values are whole identifiers of the preprocessed text or names of #define lines; types are such identifiers, in a text with a typedef, or 'struct tag', 'union tag', 'enum tag'; tags are identifiers in a text with the keyword, or generated names anon_struct0 etc. if a keyword is directly followed by a brace; macros have a #define or #undef line. So a name that does not occur in a header keeps its definition.", "quantifier": "every file text, every content of the tables, every kind and name", "why_tests_cant": "A scanner that skips what it does not understand may start in the middle of a word or combine pieces of different declarations; the texts on which it might do so cannot be enumerated.", "anchors": ["pyclibrary/c_parser.py: CParser.process_all, preprocess, parse_defs, build_parser", "pyclibrary/c_parser.py: CParser.add_def, process_macro_defn"]}
{"id": "C82", "title": "The repr of a definition reads back as the definition", "statement": "For every definition that process_all records - types with pointers, arrays, parameters and qualifiers, function signatures, variables with their values, enums, structs and unions with bit widths and packing - repr() gives a Python expression that evaluates to an equal object, provided Type, Struct and Union are in scope. So two definitions of a kind that print the same are the same, and a printed definition can be pasted into a program or a test.", "quantifier": "every list of header files, every recorded definition, any nesting of types", "why_tests_cant": "repr recurses through types, parameter lists and members of any depth and chooses among several forms (one-element tuples, quotation marks, omitted qualifiers and packing); tests compare a few fixed texts.", "anchors": ["pyclibrary/c_parser.py: Type.__repr__, Type.__init__, Type.__eq__", "pyclibrary/c_parser.py: Compound.__repr__, Compound.__init__", "pyclibrary/c_parser.py: CParser.process_type, process_struct, process_enum"]}
{"id": "C83", "title": "find_text finds exactly the lines that contain the text", "statement": "p.find_text(text) returns a tuple (file, number, line) for every line of every header text held by the parser in which the text occurs, and nothing else: the number is that of the line in the text, lines come in the order of the files and of the lines, none twice. It raises only if some header file was missing, and then AttributeError.", "quantifier": "every set of header texts, every text searched for", "why_tests_cant": "An omitted or doubled line shows only for particular arrangements of line ends and occurrences; the texts are arbitrary.", "anchors": ["pyclibrary/c_parser.py: CParser.find_text", "pyclibrary/c_parser.py: CParser.load_file"]}
{"id": "C84", "title": "Which arguments reach the C function, for every signature and every call", "statement": "For every wrapped function, with or without default values and even with repeated parameter names, and every call f(*args, **kwargs): the C function is reached exactly if all keywords are names of parameters, None is only given for parameters whose type has a modifier, and every position in front of the last one given (or within the number of parameters without default value) for which nothing was given is a one- or two-level pointer. It then gets, at every position, what the caller gave by keyword, otherwise by position, otherwise a generated object; the generated ones are listed in order. In all other cases TypeError is raised, or IndexError for None behind the last parameter. Default values of the header are never passed and influence no call.", "quantifier": "every signature whose types can be built, every list of positional arguments and every dictionary of keyword arguments, every backend state, lock_calls=False", "why_tests_cant": "The space of signatures and calls is infinite; the number of arguments and the positions filled depend on the interplay of defaults, keywords and surplus arguments.", "anchors": ["pyclibrary/c_library.py: CFunction.__call__", "pyclibrary/c_library.py: CFunction.__init__"]}
{"id": "C85", "title": "What a header can depend on, and processing headers in any order", "statement": "Whatever the header contains, its result depends only on names that can be read off it: macros that are whole words of its lines (or the last character of one), values that are words of its constant expressions, tags behind struct, union and enum, and generated names if it has untagged ones. Two parsers whose tables agree on these names raise the same exception or go through the same add_def and rem_def calls and produce the same preprocessed text, however different the rest of their tables is. So headers none of which defines what another one defines or depends on give the same definitions in every order, each of them what it gives when processed alone.", "quantifier": "every file text and every list of files, every content of the tables with macros recorded by #define, every configuration without empty extra words", "why_tests_cant": "Tests try a few headers in one order; that nothing else in a table of thousands of entries can influence a header is a statement about all pairs of tables and all texts.", "anchors": ["pyclibrary/c_parser.py: CParser.process_all, preprocess, expand_macros, parse_defs, build_parser", "pyclibrary/c_parser.py: CParser.eval_expr, process_struct, process_enum, process_type"]}
{"id": "C86", "title": "Enums, structs and unions through typedef names", "statement": "lib('enums', name) works with a typedef name as well as with the tag: if the typedefs lead from the name to an enum, in any number of steps, the result is the dictionary of that enum, the same that lib('enums', tag) gives; if they lead to another type KeyError is raised, if they lead nowhere DefinitionError, and NameError if there is no such typedef. Likewise the definition used by lib('structs', name) and lib('unions', name) is the one of the tag the typedefs lead to. Earlier lookups do not matter.", "quantifier": "all headers, every library without prefixes, every backend, every history of lookups, every name that is not a tag, typedefs without calling convention outermost", "why_tests_cant": "Chains of typedefs have any length and the cache of objects depends on every earlier lookup.", "anchors": ["pyclibrary/c_library.py: CLibrary._make_obj_, _resolve_struct_alias", "pyclibrary/c_parser.py: CParser.eval_type"]}
{"id": "C87", "title": "String and floating constants keep their value", "statement": "A macro whose text is a string literal (without backslashes and control characters) has exactly the text between the quotes as its value, with every character in it untouched; one whose text is a decimal floating constant without suffix, with or without sign, has the number it denotes in C as its value. The same holds for initialisers of variables, for floating constants with at most one digit in front of the point. The value does not depend on the other definitions or on the Python process.", "quantifier": "every text of a literal, every name, every state of the tables, any blanks around the text", "why_tests_cant": "The text passes through comment removal, macro expansion, pyparsing's number and string patterns and Python's eval, each of which could alter it; tests try four literals.", "anchors": ["pyclibrary/c_parser.py: CParser.process_macro_defn, eval_expr, eval, number, floating, quotedString"]}
{"id": "C88", "title": "Replacements are made literally, everywhere, and line ends do not matter", "statement": "With a dictionary of replacements, the text that is parsed is the text of the header in which, for one entry after the other in the order of the dictionary, every occurrence of the string (from left to right, without overlaps) is replaced by its value; strings that do not occur change nothing; and a header gives the same text whether its lines end with a line feed, a carriage return or both.", "quantifier": "every file content, every dictionary of replacements", "why_tests_cant": "Tests replace one word in one header; overlapping occurrences, several entries and special characters are combinations no test exhausts.", "anchors": ["pyclibrary/c_parser.py: CParser.load_file 728-771 (re.sub), CParser.__init__ (replace)"]}
{"id": "C89", "title": "build_array fills arrays as a C initialiser does", "statement": "After loading a header and any use of the library, build_array(lib, typ, size, vals), with typ the name of a type or a class of the library, gives an array of that shape whose bytes are those of the C array with the corresponding initialiser: each value is stored where C stores it, also in nested arrays, structs and unions, converted to its type as C does, everything not given is zero, and Python reads the same numbers back. More values than places raise; without values the array is zero.", "quantifier": "every header, every sequence of uses, every element type, all dimensions, all values", "why_tests_cant": "Tests fill one array of two pointers; nesting, padding, conversion and missing values combine without bound.", "anchors": ["pyclibrary/c_library.py: build_array 648-669", "pyclibrary/backends/ctypes.py: CTypesCLibrary._get_array 371-386"]}
{"id": "C90", "title": "Numbers pass through calls as in C", "statement": "After loading a header and any use of the library, in a call lib.f(...) that reaches the C function each integer given arrives converted to the type of its parameter as C does; a bytes object given for a char * or void * arrives as the address of its bytes followed by a zero; None for a pointer arrives as a null pointer; an object given for a parameter of its type arrives by value (an array by its address), and one given for a pointer to its type (or an array of such) by its address; for an omitted pointer the C function gets the address of a new object with all bytes zero, a different one for each parameter. The numbers the C function leaves in these objects, at any depth of structs, unions and arrays, and in its result are those the caller reads from the CallResult, by position and by name. A call that does not reach the C function raises.", "quantifier": "every header, every sequence of uses, every function, all arguments, every memory and every behaviour of the C function", "why_tests_cant": "Tests call a few functions of one test library with fixed numbers; conversion, addresses and the reading of results depend on all types, arguments and on what the C function does.", "anchors": ["pyclibrary/c_library.py: CFunction.__call__ 422-506", "pyclibrary/c_library.py: CallResult 530-625", "pyclibrary/backends/ctypes.py: _extract_val_ 161-171, _get_pointer 350-362, _init_function 388-391"]}
{"id": "C91", "title": "cast_to keeps the address and reinterprets memory as C does", "statement": "After loading a header and any use of the library, cast_to(lib, obj, typ), with typ the name or class of a pointer type and obj an object of the library, gives a pointer whose class is that of the C type and that points to where obj is, or points. Indexing it and following members and elements reads the numbers that are in memory at the places where C puts them. Casting twice is casting once. Types that are not pointers raise TypeError.", "quantifier": "every header, every sequence of uses, every pointer type, all objects, every contents of memory, all indices and members", "why_tests_cant": "The only test casts one array to void * and compares one address; reinterpretation depends on all layouts and contents.", "anchors": ["pyclibrary/c_library.py: cast_to 628-646", "pyclibrary/backends/ctypes.py: CTypesCLibrary._cast_to 364-369"]}
{"id": "C92", "title": "Comments and layout of header files do not matter", "statement": "Two versions of a set of header files with the same directives in the same order, whose text between the directives differs only in comments, continued lines and white space (line breaks included) between tokens, give the same definition tables after process_all, or raise the same error, whatever conditionals and macros they contain.", "quantifier": "every pair of versions of every set of files, every initial tables", "why_tests_cant": "Tests compare one layout of a few headers with expected tables; which layouts are equivalent depends on comment removal, line joining, macro replacement by lines, and the white space rules of every parser.", "anchors": ["pyclibrary/c_parser.py: CParser.process_all 585-604, remove_comments, preprocess, parse_defs"]}
{"id": "C93", "title": "A use of a macro means its replacement text", "statement": "Header files in which uses of macros, in declarations, in other macros and in pragmas, are written out by hand (object-like macros by their replacement text, calls of function-like macros by their body with the arguments), and in which conditions are written differently as long as the same lines are selected, give exactly the same definition tables, the same preprocessed text and the same errors after process_all, whether the macros come from the same file or from one before.", "quantifier": "every set of files, every initial tables, every choice of uses that are written out", "why_tests_cant": "Tests look at the expansion of a few lines; that the whole pipeline cannot tell a macro from its replacement text is a statement about all headers and all tables.", "anchors": ["pyclibrary/c_parser.py: CParser.process_all 585-604, preprocess 818-1024, expand_macros 1092, expand_fn_macro 1136, process_macro_defn 1044"]}
{"id": "C94", "title": "Tabs are white space", "statement": "Tabs in a header file count as white space wherever they are between tokens, in indentation, around the value, the name and the parameters of a macro, and in front of comments, although pyparsing replaces them by blanks up to the next multiple of eight columns before it reads a #define line and before it searches for definitions: the definition tables, the preprocessed text and the errors are those one gets without this replacement, and two layouts of a file, with tabs or without, give the same tables.", "quantifier": "every file and every set of files, every initial tables, every place of tabs outside of literals", "why_tests_cant": "The number of blanks depends on the column, on macros expanded before, and on the comments removed; where they end up matters to positions (packing by line), to string literals and to stored macro texts.", "anchors": ["pyclibrary/c_parser.py: CParser.preprocess 954 (parseString), parse_defs 1182 (scanString), process_macro_defn 1044"]}
{"id": "C95", "title": "Signatures are faithful and errors of calls come through", "statement": "pretty_signature() of a wrapped function tells its result, its name and its parameters in order (without void), in a form that can be read back: two functions have the same text only if name, result (up to qualifiers) and names and types of the parameters agree.  If the C function raises, the call logs this signature and raises that same error.  For a result that points to an array or a function pretty_signature raises TypeError, and that hides the error of the call.", "quantifier": "every function of every header, every argument list, every behaviour of the C function", "why_tests_cant": "Names, types and texts are unbounded; the failing path is only taken when the C function raises, and depends on the shape of the result type.", "anchors": ["pyclibrary/c_library.py: CFunction.pretty_signature 521-527", "pyclibrary/c_library.py: CFunction.__call__ 496-506", "pyclibrary/c_parser.py: Type.__repr__ 248-254"]}
{"id": "C96", "title": "A struct, union or enum that is recorded is not lost", "statement": "Once a struct, union or enum is in the tables it stays there, whatever the text of the files processed later: a struct or union changes (members, packing) only through a file that has, after preprocessing, a body for that tag, and then it has members; so mentions in prototypes and typedefs, forward declarations, empty bodies and broken declarations never take the members away. A recorded enum never changes.", "quantifier": "every text of every set of files, every tables before", "why_tests_cant": "Later headers mention a type in arbitrarily many places, and every alternative of the grammar that backtracks still runs its side effects; a test sees a few orders of a few declarations.", "anchors": ["pyclibrary/c_parser.py: CParser.process_struct 1539-1598", "pyclibrary/c_parser.py: CParser.process_enum 1474-1510", "pyclibrary/c_parser.py: build_parser 1184-1382"]}
{"id": "C97", "title": "A header that is split into two files records the same", "statement": "If a header is cut between two declarations and the two parts are processed as two files, one after the other, every table has the same entries as for the header in one file, and the same exception is raised if there is one: the state that the parser carries from file to file (macros, values, types, tags) is all that the second part needs.", "quantifier": "every first part in the grammar of C declarations, every second part, every tables before", "why_tests_cant": "In one file all macros are processed in front of all declarations, in two files the declarations of the first part come in between; a test compares one or two headers and cannot show that no other header depends on that order.", "anchors": ["pyclibrary/c_parser.py: CParser.process_all 544-611", "pyclibrary/c_parser.py: CParser.preprocess 818-1024", "pyclibrary/c_parser.py: CParser.parse_defs 1156-1182"]}
{"id": "C98", "title": "What stands in a skipped region of a header does not matter", "statement": "Replacing the lines of a branch that is not taken (after a false #if, #ifdef or #ifndef, or the #else of a true one) by any others (definitions, pragmas, nested conditionals, half declarations) changes nothing in the tables and nothing in the exception raised: disabled code of a header cannot influence the definitions that a user gets.", "quantifier": "every header, every lines before and after the region, every well nested lines in it, every tables before", "why_tests_cant": "Every line of disabled code passes through the same loop as the others and takes part in the counting of lines for packings; a test disables a few lines of its choice and cannot show that no other text leaks.", "anchors": ["pyclibrary/c_parser.py: CParser.preprocess 818-1024", "pyclibrary/c_parser.py: CParser.process_all 544-611", "pyclibrary/c_parser.py: CParser.packing_at 1529-1537"]}
{"id": "C99", "title": "Only the selected lines of a header matter", "statement": "Two headers whose conditionals select the same lines give the same tables or the same exception. In particular resolving the conditionals of a header by hand (removing the #if, #ifdef, #else, #elif and #endif lines and the lines not chosen, as unifdef does) changes nothing for the user of the definitions.", "quantifier": "every two headers with well nested conditionals that select the same lines, every tables before", "why_tests_cant": "Conditionals nest to any depth and any lines may stand in the branches; the lines kept, the lines blanked and the lines dropped are counted and joined before the grammar sees them. A test compares one header with one resolved form.", "anchors": ["pyclibrary/c_parser.py: CParser.preprocess 818-1024", "pyclibrary/c_parser.py: CParser.process_all 544-611", "pyclibrary/c_parser.py: CParser.parse_defs 1156-1182"]}
{"id": "C100", "title": "The way conditionals are written does not matter", "statement": "A header gives the same tables or the same exception if its conditionals are written in another way with the same meaning in C: #ifdef X or #if defined(X) or #if defined X, #elif or an #if within #else, the branches exchanged under the opposite condition, any other condition that holds for the same defined names, two nested conditionals as one with both conditions, an empty #else left out.", "quantifier": "every header with well nested conditionals, every such rewriting at any number of places and any depth, every tables before", "why_tests_cant": "Each directive has its own branch in the code with its own handling of the stacks of conditions, and conditions are rewritten as text and given to eval; tests fix one spelling each and never compare spellings in nested positions.", "anchors": ["pyclibrary/c_parser.py: CParser.preprocess 818-1024", "pyclibrary/c_parser.py: CParser.eval_preprocessor_expr 1026-1042", "pyclibrary/c_parser.py: CParser.process_all 544-611"]}
{"id": "C101", "title": "A macro given to the constructor acts like a #define that is read first", "statement": "CParser(files, macros={X: body, ...}) gives the same tables (or raises the same) as a parser that reads a header with the lines #define X body ... in front of the files: conditionals, replacement in declarations and #undef work on both alike. Only the entries of these macros in defs['values'] are missing.", "quantifier": "every list of macros without arguments that do not use each other, every list of files that asks for no value of them under their name", "why_tests_cant": "The constructor writes the tables by add_def, the header goes through comment removal, preprocess, process_macro_defn and parse_defs; tests would have to compare the two for every text that follows.", "anchors": ["pyclibrary/c_parser.py: CParser.__init__ 469-542", "pyclibrary/c_parser.py: CParser.process_macro_defn 1044-1071", "pyclibrary/c_parser.py: CParser.preprocess 818-1024", "pyclibrary/c_parser.py: CParser.process_all 544-611", "pyclibrary/c_parser.py: CParser.eval_expr 1633-1656"]}
{"id": "C102", "title": "copy_from goes on where the other parser stopped", "statement": "If p = CParser(fs) has read the headers fs, then CParser(gs, copy_from=p) gives the same tables, or raises the same, as CParser(fs + gs): macros, types and values of fs work in gs as if the headers had been read by the same parser. The same holds for several parsers in copy_from, if no header of them defines what another one defines or asks for, and for chains of parsers of any length.", "quantifier": "every list of headers fs and gs, whatever their texts, where the files of fs have different base names and none of them undefines a macro of another; the same keyword arguments for all parsers", "why_tests_cant": "copy_from rebuilds the tables from the records per file, in another order than they were made; whether gs then selects the same text, expands the same macros and resolves the same types depends on every table at once.", "anchors": ["pyclibrary/c_parser.py: CParser.__init__ 469-542", "pyclibrary/c_parser.py: CParser.import_dict 690-701", "pyclibrary/c_parser.py: CParser.process_all 544-611", "pyclibrary/c_parser.py: CParser.add_def 1667-1681", "pyclibrary/c_parser.py: CParser.rem_def 1683-1697"]}
{"id": "C103", "title": "Definitions that the headers do not ask for do not matter", "statement": "Extra definitions that a parser holds before it reads headers (from keyword arguments, copy_from, or other headers) and that these headers do not ask for change nothing: the same exception is raised, or every other name is defined in the same way as without them.", "quantifier": "every list of headers, every tables before, every set of definitions that the headers do not ask for; for copy_from, parsers whose headers have different base names and undefine no macro of each other", "why_tests_cant": "Whether a definition leaks into a text depends on all places that look up names (macro expansion, conditions, constant expressions, tags, generated names); tests can show a leak, not that there is none.", "anchors": ["pyclibrary/c_parser.py: CParser.process_all 544-611", "pyclibrary/c_parser.py: CParser.preprocess 818-1024", "pyclibrary/c_parser.py: CParser.expand_macros 1092-1155", "pyclibrary/c_parser.py: CParser.parse_defs 1156-1182", "pyclibrary/c_parser.py: CParser.eval_expr 1633-1656"]}
