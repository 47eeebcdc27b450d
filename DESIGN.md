# Formal model of pyclibrary in Lean 4 — design

Properties: `properties.jsonl`.  Status and exact theorem names per property: `MANIFEST.json`.
Seeded-fault experiments: `seeded/LOG.jsonl`.

## 1. Layout and style

```
lean/Verif/Basic.lean, Text.lean   Python-ish base: text as `List Char`, dict, exceptions
lean/Verif/Model/*.lean      the model, function by function; each definition cites /repo lines
lean/Verif/Spec/*.lean       specifications, written without the algorithms of the model
lean/Verif/Proof/*.lean      helper lemmas
lean/Verif/Props/*.lean      the property theorems (names `Cnn_…`) and concrete cases meeting their hypotheses
```

Shallow, total, computable functions that mirror the Python branch by branch.  Exceptions are values
(`Except PyErr`), mutation returns the new state, a dict is an association list in insertion order.
`while True` loops and recursive grammar rules get a fuel argument together with a theorem that the fuel
given never runs out (`C01_terminates`, `C24_terminates`, `C60_finishes`, `C49_terminates`), or, where the
real loop can stand still, a theorem that it does (`C60_counterexample_empty`).

Whatever is not modelled but influences the result is a *parameter* of the model, and the theorems hold
for every value of it (the Python interpreter outside the modelled fragment of expressions, the C library,
the file system, time stamps, the system search for libraries, the backend in `Model/Lib`).

Naming of theorems: `Cnn_…` belongs to property Cnn; `_partial` means that the English claim is wider than
the theorem, the missing part is named in the comment and in MANIFEST.json; `Cnn_counterexample_…` proves
that the code violates the claim, with a concrete witness run through the model.

## 2. Which code is modelled

| code (/repo/pyclibrary) | model | not modelled |
|---|---|---|
| c_parser.py `Type.__repr__` 248, `Compound.__repr__` 272 | `Model/Repr` | `Enum.__repr__` (no `Enum` is ever recorded), `print_all` (pprint) |
| c_parser.py `Type` 62-257, `is_fund_type`, `eval_type` 1695-1714 | `Model/Types` | `__getattr__`-style conveniences |
| `CParser.__init__` bookkeeping 469-542, `process_all` 544, `load_cache` 612, `write_cache` 703, `load_file` bookkeeping 749-770 | `Model/Cache` | pickling itself (a cache file is its contents), reading of bytes, logging |
| `load_file` 728-771: the text kept | `Model/Load` | decoding of bytes; regular expressions other than ordinary characters, the point and escapes, and replacements with backslashes (parameter `rx`) |
| `import_dict` 690, `add_def` 1667, `rem_def` 1683, `find` 1716 | `Model/Store` | – |
| `find_text` 1732 | `Model/Search` | – |
| `find_headers` 714, utils.py, init.py | `Model/Utils` | `ctypes.util.find_library`, the `file` program (parameters) |
| `remove_comments` 802 | `Model/Comments` | – |
| `preprocess` 818-1024, `packing_at` 1529 | `Model/Preproc` | – |
| `process_macro_defn` 1044, `compile_fn_macro` 1073, `expand_macros` 1092, `expand_fn_macro` 1136 | `Model/Macro` | `str.format` fields other than `{}` (parameter) |
| `eval_preprocessor_expr` 1026 | `Model/PPExpr` | Python expressions outside integers, comparisons, `not/and/or`, `+ - *`, parentheses (parameter) |
| `parse_defs` 1156, `build_parser` 1184-1382, grammar tables 1776-1946 | `Model/Grammar` (character level recursive descent) | packrat cache, `ParseResults` plumbing, error reporting |
| `process_declarator` … `process_typedef` 1384-1629, `eval_expr` 1633 | `Model/Decl` | logging |
| `CParser.eval` 1658 | `Model/Eval` | Python expressions other than integer arithmetic and single comparisons (`True` is 1), plain string and float literals, quotients of integers (parameter); rounding of floats |
| `process_all` 585-604 (one file, all phases on the same tables) | `Model/File` | files that import others (`#include` is ignored by the code) |
| c_library.py metaclass 31-85, lookups 88-306, `_resolve_struct_alias` 378 | `Model/Lib` (any backend), `Model/CtLib` (the ctypes library with `_get_function` 323-339) | `__repr__`, `__dir__`-like helpers |
| `CFunction` 396-527 with `_init_function` ctypes.py 388-391, `CallResult` 530-625 | `Model/Call`, `Model/Session` (`arg_c_type` 508-519), `Model/Result` (memory, results, `_extract_val_` ctypes.py 161-171), `Model/Pretty` (`pretty_signature`, the error path of `__call__`) | the C function (arbitrary in `Model/Result` and `Model/Pretty`), `__repr__`, the second and third message of the log |
| backends/ctypes.py 132-450 | `Model/Ctypes` (classes by structure, lists in a heap), `Model/Utils` (`init_clibrary`) | sizes and offsets are computed by ctypes itself (`Model/Layout`) |
| `_get_array` backends/ctypes.py 371-386, `build_array` c_library.py 648-669 | `Model/Ctypes` (`C52`), `Model/Fill` (`C89`: `new(*vals)` as ctypes does it, bytes of the object, reading back) | values for other than integers (parameter `conv`), big-endian machines; the names of fields (values are matched by position) |
| `_init_function` backends/ctypes.py 388-391 with `CFunction.__call__` c_library.py 422-506 and `CallResult` 530-625, on bytes | `Model/Number` (`C90`: `argtypes` applied to the arguments as ctypes does it, numbers read back) | conversions of other objects than integers, `bytes` and ctypes instances (parameter `conv`); `ctypes.ArgumentError` is represented by `TypeError`; big-endian machines |
| `cast_to` c_library.py 628-646, `_cast_to` backends/ctypes.py 364-369 | `Model/Cast` (`C91`) | addresses given as integers, bytes, strings (parameter `conv`); lifetime of the objects pointed to |

## 3. Per property: model and proof

| id | model | how it is proved |
|---|---|---|
| C01–C03 | `Type.eval` over an arbitrary type map | fuel never runs out (pigeonhole on distinct typedef names); soundness and completeness against an inductive resolution relation |
| C04 | `add/remove_compatibility_hack` | exact condition for the round trip; qualifiers are dropped, so counterexample |
| C05–C09 | definition tables as a state machine | invariants and refinement by induction over operation lists |
| C10–C14 | cache and `process_all` over an abstract file system | acceptance condition exact; round trip through the import characterisation; counterexamples |
| C15, C16 | comments and line joining on characters | segment-list specification, induction |
| C17–C19 | the line machine | simulation against a recursive semantics of conditional trees, for arbitrary macro semantics; `C17_source` starts from the characters of the lines |
| C20–C22 | emitted lines, pack list and stack | exact line-count theorem, stack lemmas, counterexamples |
| C23–C29 | macro expansion | structural induction on text; replacement specified token by token |
| C30, C31 | conditions | print/parse lemma over all layouts of an expression tree, induction on expressions |
| C32–C36 | `process_*` on parse trees | induction on declarator trees against a denotation of C types |
| C37–C40 | `CLibrary` lookups, object caches, deaths of objects | invariants over histories |
| C41–C46 | calls and results, lock protocol | list lemmas; interleaving semantics of threads for C45 |
| C47–C52 | ctypes backend with heap | induction over modifiers and structure definitions, invariant over all reachable backend states |
| C53–C57 | utils, init | state machine over registrations and searches, byte-level PE decoding |
| C58, C61 | grammar | parser correctness: induction on the derivation of a header in `Spec/Grammar` (declarations with linkage specifications, attributes, extra modifiers, literals, casts to named types), for all layouts |
| C59 | grammar | for the headers of C58 as there; for every text: texts related by `Respaced` (`Spec/Respace`: same characters other than white space, which separates the same tokens; literals the same; packing the same) take every parser of the grammar to related positions with the same results, by induction on the bound of each parser (`Proof/Respace*`). Results do not depend on the bound (C60), so one bound serves both texts. The white space between a number and a sign behind `)` or `:` is kept. `junk` (what a struct without braces records) is assumed not to depend on layout |
| C60 | grammar | well-founded measure: every rule and loop either fails or consumes text; for all texts |
| C62, C63 | `eval` | print/scan/parse lemma for constant expressions in all layouts, induction on expressions |
| C64 | `processFile`: all phases on one set of tables | composition of C15, C16, C17, C21/C22 and C58: trace of the line machine, then layout of the emitted text, then parser correctness |
| C65 | `process_macro_defn` on the tables | C62, and: the text of an expression is never taken for a parameter list |
| C66 | `processFile`, all texts | every parser function only adds definitions that are not macros (`Proof/Adds`), the line machine only adds definitions and removes macros; induction over files |
| C67 | `processFile` | corollary of C64 with a skipped block; invariant "the guard is defined" over the block |
| C68 | `processFile` inside `processAll`, `load_cache`/`write_cache` | the round-trip invariant of C10 kept by every line of every file (induction over the lines of `preprocess` and over the definitions added by the grammar); C14 for acceptance |
| C69 | `parseDefs`, `processFile`: the whole grammar with its actions | invariant `TablesWf` (Spec/Tables.lean) kept by every parser of the grammar and every action, on success and failure, by induction over the recursion depth of the grammar (Proof/Wf, Proof/WfGram); `C03_eval` for resolution |
| C70 | the objects in the tables (`Model/Objects.lean`: every array modifier of the tables gets an identity, as Python lists have; owners only label them) together with `_get_type` and `_get_struct` of C47-C50 | the tables of C69, numbered, form a world of C47-C50 (`lib_world`, `lib_build` in Proof/ObjWorld.lean); numbering preserves meaning (`num_means`), resolution and shape (Proof/Objects.lean), ids are distinct and have the right owner (Proof/ObjNum.lean); then C47, C50, C61 and C69 are combined |
| C71 | `ctypesTable`, `getType` on types without modifiers | spellings (Spec/Scalars.lean: C11 6.7.2 up to permutation) reduce through `splitWs_dropSigned` to a permutation of finitely many word lists; the table is then compared entry by entry with the list of ctypes classes |
| C72 | `initFunc`, `callFunc`, `getPointer` on the library of C70 | the types of a function are numbered like those of C70, so wrapping is a sequence of requests of C47; objects for omitted arguments: `getPointer` against the resolved type, with the reuse of array dimensions excluded by `NullOk` |
| C73 | `Lib.session` (`__getattr__`, `__call__`, caches) over `ctLib` (the ctypes backend with `_get_function`) on the library of C70 | invariant `LibInv` of the session: the state is reachable in the sense of C47, everything in `_objs_` and `_all_objs_` is right (`Gives`), every registered class is finished; kept by each lookup (`call_right`), with one recursion bound for all lookups of the library (`bound_exists`); classes of earlier answers stay registered (`Keeps`) |
| C74 | `useLib`/`useAll` (lookups, `CFunction.__call__`, `arg_c_type` in any order) over the library of C73 | the invariant of C73 plus the origin of every wrapped function (`AllFrom`: its parameters are those of the header); a call and a question keep it (`use_right`); each completed argument is compared with the declared C type (`complete_right`); the conditions follow from computable tests (`Proof/Check`), which tests/headers/ctypes_test.h passes |
| C75 | `runLib`: `CFunction.__call__` with an arbitrary C function on memory made of blocks, `CallResult` and `_extract_val_` (`Model/Result`) | new objects are in fresh, distinct blocks (`passAll_ok`, induction on the arguments); the call itself is right by C74 (`invoke_right`); `_extract_val_` changes only structs with a member `value` and character arrays (`hasField_member`, induction on the nesting of unnamed members, with the fields of C70); combined with C42/C44 |
| C76 | sizes and offsets as ctypes computes them from `_fields_` and `_pack_` (`Model/Layout`) on the classes in any state of the library | `Spec/Layout`: least multiple, maximum, placement as relations; induction over the layout of the C type, with the fields of finished classes from C70 (`class_of_tag`), then `C76_layout_partial` |
| C77 | `CLibrary` with prefixes against the one without (`Lib.bare`), any backend | simulation: object tables and backend state agree, keys are defined names, `_all_objs_` agrees up to abbreviation and is backed by the object tables (`PreRel`); then C74 for header files |
| C78 | `load_cache`/`write_cache` (C68) below a `CTypesCLibrary` (C74) | well-formedness, the conditions of C74 and its right outcomes depend on table entries only, not on their order (`SameTables`: congruence for each specification); then C68 and C74 |
| C79 | `parse_defs` on the C subset of C58, from two different states of the tables | a header is read in the same way from tables that agree on a scope (values used, tags mentioned): induction over the derivation, with the effect of each parse action on both tables (`header_out`); the evaluator looks up words of the expression only (`evalExpr_same`, induction over the tokens and the evaluation). Order of two headers as a consequence. Bit-field members have types without body in the subset. |
| C80 | `process_all` on arbitrary texts: `preprocess`, the whole grammar with its parse actions | every parser leaves the end of its text (`Proof/GrammarSuf`, `GrammarNames`); declarators contain a convention only if it is a word of the text, and without one `process_declarator` succeeds (`procDecl_ok`); `process_typedef` is the only action whose exceptions are not caught. Evaluation of expressions never raises in the model: `eval_expr` catches `Exception`, but not the `SystemExit` of `exit(1)`. For the preprocessor: the step that fails (`ppRun_error`), with the depth of open conditionals. |
| C81 | as C80 | induction over the grammar with tables: everything is recorded by `add_def` under a name for which `MayAdd` holds at the position (`AddsAt`), which is kept when the text becomes longer; declarators of declarations always have a name. Specification: words of a text (`Spec/TextWords`), independent of positions. |
| C82 | `Type.__repr__`, `Compound.__repr__`, and `repr` of the built-in values inside (`Model/Repr`; objects `PyObj`, and which object a recorded definition is: `defPy`) | a reader for Python expressions (`Spec/Repr`, written from the Python grammar: displays, string escapes, calls with keywords) applied to the text gives the object, by induction on objects (`Proof/Repr`); the object determines the definition (`defPy_inj`). For recorded definitions the number of qualifier groups comes from C69. False for calling conventions (their `None` is not written) and for packed structs without members (`Struct(, pack=2)`). |
| C83 | `find_text` (`Model/Search`) | lines specified by positions between line feeds (`Spec/Search`), shown to be what `split` gives. |
| C84 | `callFunc` (`Model/Call`) | what the caller gives for a position is stated on the signature and the call (`Names`, `Gives`, `Reaches` in `Props/CallAll`); `fillKw_spec` gives the entries of `arg_list`, `complete_ok`/`complete_total` the arguments, by induction on the list. Default values: equal results for signatures that differ in them. |
| C85 | as C80 | two runs side by side: the whole parser makes the same `add_def` calls on two tables that agree on the names of `TextReads` (`Proof/IndepText`, by recursion through the grammar: every parse action looks up only values of words of its expressions and the tag it has just read), the preprocessor does the same steps on tables that agree on `LineReads` (`Proof/Reads`). Operation lists applied to different tables leave what they do not touch alone (`runOps_agree`), which gives the independence of the order by induction on the list of files. The example checks three headers with a decision procedure proved sound (`apartB_ok`). |
| C86 | `Lib.getEnum` (`Model/Lib`), `resolveAlias` (`Model/Ctypes`) on the tables left by `process_all` | the end of a typedef chain is unique (`reaches_unique`) and what `eval_type` gives (C01); tag entries lead back to the tag (C69); invariant of the cached enums over all lookups (`EnumInv`). |
| C87 | `eval` and `process_macro_defn` (`Model/Eval`: `pyStrLit`, `fltLit`, `pyLit`; `Model/File`) | the scan for strings, numbers and casts copies a literal unchanged (`evalScan_str`, `evalScan_flt`, whatever pieces the number pattern cuts it into); reading the literal gives the value of an independent syntax tree of floating constants (`DecFloat.value`, `flt_value`). |
| C88 | `load_file` (`Model/Load`: `readText`, `reSub`, `replaceAll`, `loadText`) | the scan of `re.sub` satisfies the inductive definition of replacing all occurrences, which determines its result; induction on the text and on the entries. |
| C89 | `build_array` (`Model/Fill`: `construct`, `encode`, `fillFrom`, `buildArray`), on the classes in any state of the library | `Spec/Fill`: initialisers, parts of objects (`PartAt`), conversion by congruence and range; the layout theorems of C76, induction over the initialiser, bytes of disjoint parts do not disturb each other. `C89_signs`: the class of an integer element is signed exactly when the C type is. |
| C90 | `runNum` (`Model/Number`): `CFunction.__call__`, then `from_param` of the classes in `argtypes` (CPython's ctypes, as far as integers, `bytes` and ctypes objects go), an arbitrary C function on memory made of bytes, and the integers read from the `CallResult` | `Spec/Number` (`NumbersRight`, `Passable`), with the parts of objects and the conversions of `Spec/Fill`; `call_sees` (the core of C75) gives the objects passed, `mirrors_plain` that a C type without functions has one class, `read_obj` (layout of C76) that Python reads the number that is there. Missing: function pointers, floats and `str` (parameter `conv`). |
| C91 | `castTo` (`Model/Cast`), addresses as a block and an offset, reading through a pointer (`derefNum`) | `Spec/Cast` (`Addresses`, `CastRight`); the class by `name_right` (C89), reading by the layout of C76 (`deref_right` from `read_obj`). Missing: objects other than arrays, pointers and `None`, which raise or are left to a parameter. |
| C92 | `processFile`, `processFiles` (`Model/File`) | `Spec/Relaid`: the files are split into the same directives and corresponding runs of text lines (`Relaid`, on top of `IsSource` of C64); in all macro tables with an invariant property `P`, the replaced text of corresponding runs differs in white space only (`SameText`, from `Respaced` of C59). Both runs of the preprocessor stay in the same state (`relaid_run`), their outputs are `Respaced` (`resp_out`), and C59 applies. `C92_plain_partial` is the case of text without names of macros. `C92_pack_partial` (`Spec/RelaidPack`, `Proof/RelaidPack`) is for files with `#pragma pack`: the two runs record the same changes of the packing on other lines, and the packing in force at each character is the last one recorded in front of it in both (`packed_run`); it needs an empty line in front of each pragma and that no line is dropped (`C64_counterexample_line`, `C64_counterexample_skipped`). Missing: calls of macros on several lines (`C92_counterexample_call`), comments without white space beside them (`C64_counterexample_comment`). |
| C94 | `expandTabs`, `Setup.semTab`, `processFileTab` (`Model/Tabs`): as `processFile`, with the expansion of tabs of `parseString` and `scanString` | `Spec/Tabs`: `TabSafe` (tabs of the preprocessed text are between tokens), `TabDef` (tabs of a definition are at the ends and around the parameters). `C94_file_partial`: the expansion of a `TabSafe` text is a respacing of it with the same packing at every character (`tab_respaced`), then C59; texts of macros never contain a tab (invariant `TabEnv`), macro replacement keeps tabs at the ends (`expandF_last`), and `pp_define` does not see them (`parseDefine_exp`). `C94_all_partial` for several files, `C94_layout_partial` with C92. Missing: tabs in literals (`C94_counterexample_string`: the value changes), tabs inside the value of a macro (its text is stored with blanks), macros with the name of a parameter. |
| C95 | `prettySig`, `runFunc` (`Model/Pretty`), `Type.__repr__` (`Model/Repr`) | `Spec/Pretty` `readSig`: a reader of signatures, with the reader of Python expressions of C82 for the types; `C95_read` by induction over the parameters; `C95_files_partial` with the invariant C69 of the tables. `runFunc` is `callFunc` (C42–C46) with the C function as a parameter and with what happens when it raises |
| C96 | `parseDefs` (`Model/Grammar`), `procStruct`, `procEnum` (`Model/Decl`), `processFiles` | `Spec/Bodies` `HasBody`: keyword, white space, tag, opening brace; the invariant `AddsAt` of C81 over all parsers carries what each addition finds under its name (`TagAgain`), so that backtracking is covered too; macros do not touch these tables (`pp_change`); induction over the files |
| C97 | `processFiles`, `processFile` (`Model/File`), `preprocess`, `parseDefs` | `Spec/Split` `MacrosApart`; the run of the preprocessor over the joined lines is the run over the first part followed by one that differs in its place in the text only (`ppRun_pk`); what the lines look up is the same with and without the declarations of the first part (C81 `AgreeOn`); the declarations of the first part define the same before and after the macros of the second (`header_out` of C79); `scanString` gets through the first part to the text of the second (`parseDefs_split`); with pragmas in the second part the list of packings is that of the second part moved by the lines of the first (`ppRun_shift`), and so is the line of each character (`pack_first`, `pack_second`) |
| C98 | `processFile` (`Model/File`), `ppStep`, `ppRun`, `classify` (`Model/Preproc`), `parseDefs` | `Spec/Dead` (`Off`, `Loose`); the run over well nested lines that are skipped returns to the state before them and puts out blank lines only (`block_dead` of C18); the same number of them if none is dropped (`ppRun_keeps`), hence equal results; otherwise the two texts differ in white space only (`resp_around`) and `C59_blanks_partial` gives the same tables; with pragmas outside, the packings that begin later are moved by the length of the region (`ppRun_shift` of C97), like the text (`respP_around`) |
| C99 | `processFile` (`Model/File`), `ppStep`, `ppRun`, `classify` (`Model/Preproc`), `parseDefs` | `Spec/Source` (`SBlock.run`), `Spec/Chosen` (`SBlock.chosen`); the selected lines determine the macros (`sblock_lineRun`), without selected pragmas nothing is raised and the packings stay (`trRun_quiet`), the lines kept are those of the tree (`select_run`, by `block_live`); two outputs with the same lines apart from empty ones differ in white space only (`follows_codes`), and `C59_blanks_partial` gives the same tables. With pragmas: the run over a file agrees with that over its selected lines alone (`entries_run`, `coreRun`), each line of text having the packing in force there (`Tagged`), then `followsP_tagged` and `C59_texts_partial` |
| C100 | `processFile`, `classify`, `ppStep`, `ppRun` (`Model/Preproc`), `substDefined` (`Model/Macro`), `condE` (`Model/PPExpr`) | `Spec/Alike` (`BlockAlike`, `Cond.Means`, `CondEq`, `CondOpp`, `CondAnd`); by induction on the rewriting the same lines are selected (`alike_run`), conditions on defined names having the value that C gives them (`means_holds`, from `C30_agrees_partial`); then `C99_selected_partial` |
| C101 | `initStore`, `addKwargs` (`Model/Cache`), `processFile`, `processFiles`, `defineIn` (`Model/File`), `preprocess` (`Model/Preproc`), `parseDefs` (`Model/Grammar`) | `Spec/Given` (`DefLine`, `AsksNoValue`); the run over the header keeps the relation `OnlyGiven` with the tables of the constructor (`given_run`), bodies being unchanged by expansion (`C23_unchanged_partial`); then by induction on the files `C85_file`: a file makes the same calls of `add_def` and `rem_def` on tables that agree on what it asks for |
| C102 | `initStoreFrom` (`Model/Cache`), `importDict` (`Model/Store`), `processFiles` (`Model/File`) | `CacheSafe` (`Props/FileCache`); the copied tables show the same definitions (`rt_reload`, the invariant of C68), and files that follow make the same calls on tables that show the same (`C101_files`, from `C85_file`); several parsers: by induction on the groups, each definition comes from one header (`copies_tables`, `C85_files`); chains: the invariant `ChainInv` on the records per file is kept by files and by copies (`chain_files`, `chain_copy`) |
| C103 | `processFiles`, `processFile` (`Model/File`), `initStore`, `initStoreFrom` (`Model/Cache`) | `Spec/Unread` (`AsksNone`, `InTables`) on top of `FileReads` (`Spec/Reads`); by induction on the files with `C85_file`: the same calls are made on both tables |
| C93 | `processFile`, `processFiles` (`Model/File`), `expandMacros` (`Model/Macro`) | `Spec/Unfold`: `Unfold m l l'` writes out the macros of one line from left to right, `WrittenOut` says that no name of a macro is left, `EntriesOut` compares two files entry by entry (the trace of C64). `C93_line_partial` by induction over `Unfold` with C23, C26; the two runs of the preprocessor are equal step by step (`entriesOut_run`), so the results are equal. `C93_all_partial` for several files. Missing: macros behind a string literal (`C93_counterexample_string`, as in C25) and macros whose text names a macro defined later (`C93_counterexample_later`: the text is replaced when the macro is defined, C replaces it when it is used). |

## 4. Trusted base

* The Lean 4 kernel.  Axioms: every theorem named in MANIFEST.json depends at most on `propext`,
  `Classical.choice` and `Quot.sound`, checked with `#print axioms`.  No axiom of our own, no `sorry`, no
  `native_decide`, no `bv_decide`.
* The reading of the Python source (each definition cites its lines) and of the Python built-ins used:
  `dict` order, `str.strip/split/format/isdigit`, slices, `re` patterns (hand-translated into matchers),
  `eval` on the fragments named above, `os.path.basename/join/isfile`, `weakref`.
* The reading of pyparsing: `transformString` scanning, ordered choice, greedy repetition, white space
  skipping before terminals, `Keyword` boundaries, parse actions run at match time, `delimitedList`,
  `nestedExpr`, `ignore`d quoted strings.
* Facts about ctypes: `POINTER(t)`, `t*n`, `CFUNCTYPE(...)` give the same class for the same arguments; a
  `Structure` subclass is new each time; which operations on classes raise; how sizes, alignments and offsets follow
  from `_fields_` and `_pack_` (`Model/Layout`, from CPython).
* `Props/Conformance` is a test of the model, not a property: the model, in the configuration of tests/test_parser.py, is
  evaluated on the header files of /repo/tests/headers, and the resulting tables are those the tests of the project expect.
* Characters: letters are ASCII letters (`\w` of Python also matches other alphabets); white space is ASCII
  plus the separators `\x1c`–`\x1e`.
* Resource limits (recursion limit, memory, running time, sizes of numbers) are not modelled.

## 5. Disagreements found between the code and what its users rely on

Every entry with a theorem name is machine-checked on the model.

**Types and store**
* `signed` alone resolves to the empty base name, `long signed int` to `long  int` (`C02_signed_empty`, `C02_double_blank`).
* A typedef with a calling-convention placeholder makes resolution raise `TypeError` (`C01_callconv_typeError`).
* `remove_compatibility_hack` drops qualifiers (`C04_counterexample`).
* `repr` of a packed struct without members is `Struct(, pack=2)`, no Python expression (`C82_counterexample_pack`); `repr` of a
  type with a calling convention reads back as a different type (`C82_counterexample_conv`).
* `#undef` in another file leaves the old record in `file_defs`; a cache built from it resurrects the macro
  (`C06_stale_record`, `C10_counterexample_undef`, `_kwargs`, `_basename`).
* Cache options do not cover `copy_from` and `encoding` (`C12_counterexample_copy_from`); a malformed cache
  leaves a partial import behind (`C13_counterexample`).

**Preprocessor**
* A `#define` without a name raises even in a skipped region (`C17_counterexample_bad_define`).
* Some directives leave no line behind, so line numbers shift (`C20_counterexample*`); a struct directly
  before a `#pragma pack` gets the packing of that pragma (`C21_counterexample`).
* `pack(n)` replaces nothing on the stack, `push` without value resets the packing (`C22_counterexample_set`);
  `pop` on an empty stack raises (`C22_pop_underflow`).
* After a string literal the rest of the line is not expanded (`C25_counterexample`); its last character is
  examined alone (`C23_counterexample`), so that a macro `t` of another header changes the name of a function
  `start` declared behind `extern "C"` (`C85_counterexample_literal`).
* Braces in a macro body are format fields, nested calls end at the first parenthesis, text between the
  name and the parenthesis is lost (`C26_counterexample_*`); a missing argument that the body does not use
  is not noticed (`C27_counterexample`); `#undef` does not remove function-like macros (`C29_counterexample`).
* `!=` is always false, comparisons chain as in Python, `!` binds as Python's `not`, hexadecimal and
  suffixed constants are misread (`C30_counterexample_*`).

**Whole files**
* The strings of `replace` are regular expressions although they are documented as strings: `a.b` is also found in
  `a_b` (`C88_counterexample_special`, `C88_counterexample_regex`).
* A comment alone between two words joins them, `int/**/x;` (`C64_counterexample_comment`); a struct that begins on
  the line before a pack pragma gets the packing of that pragma (`C64_counterexample_line`); skipped
  `#define` lines shift the pragmas (`C64_counterexample_skipped`).  Continued lines are joined after comments are
  removed (C does it before), so a line comment ending in a backslash differs.
* A macro has the value its text has when it is defined: `#define B A` before `#define A 1` has no value, a
  later redefinition of `A` is not seen, enumerators of the same file are not known yet
  (`C65_counterexample_*`).  `#undef` keeps the value (`C66_undef_value`).
* Files with the same base name share one record (`C66_basename`).  After a reload of the cache such files may show an older
  definition (`C68_counterexample_basename`), and macros removed by another file come back
  (`C68_counterexample_undef`, `_kwargs`).

**Declarations and grammar**
* Array brackets around a parenthesised array (`int (a[2])[3]`), calling conventions in parentheses, references to arrays:
  `C32_counterexample_*`, `C36_counterexample_conv`.
* `int a, b = 3;` gives both variables the value 3 (`C36_counterexample_value`); a failing enumerator drops
  the enum but keeps the earlier values (`C33_counterexample_failure`); a hexadecimal bit width drops the
  struct (`C35_counterexample_hex`).
* A struct inside a struct, without member name but with a qualifier, is recorded as a member of type `const`
  (`C69_counterexample_unnamed`).
* Not understood at all: variadic prototypes, unnamed function-pointer parameters, `int a = 1, b = 2;`, several
  bit-fields in one member declaration (`struct BITS` of tests/headers/ctypes_test.h is recorded without members), names
  beginning with two underscores (`C58_counterexample_*`); `unsigned foo_t x;` is read as `foo_t x;`
  (`C58_counterexample_rescan`).  A `$` is part of a name (`C58_dollar_partial`), but a name that begins with a word of
  the language followed by `$` is not read: `char int$b;` records nothing (`C58_counterexample_dollar`).
* The white space behind a sign that follows a parenthesis is part of the text given to Python's `eval`: `(A) - 3` has a
  value, with a line break behind the sign it has none (`C59_counterexample_sign`).
* An extra modifier (`auto_init(extra_modifiers=...)`) in front of a parenthesised declarator takes the declarator for
  its argument: `typedef int API (*cb)(int);` records a variable `cb` of type `API` (`C58_counterexample_modifier`).
* Attributes are understood in front of declarators only: behind one, the declaration is lost; `struct s {...}
  __attribute__((packed));` is recorded without the packing, with its members as variables beside it; in front of a tag
  the attribute becomes the tag (`C58_counterexample_attribute`, `_packed`, `_packed_tag`).
* Casts to built-in or pointer types, `!`, suffixed floats, trailing commas, `sizeof` lose the declaration, character
  constants lose the enumeration (`C58_counterexample_cast`, `_float`, `_lists`, `_enum`); `(N) + 1` is a cast
  (`C58_counterexample_paren`).  `extern "C" { char *s = ";"; }` on one line loses `s`: the text between the quotation
  marks is taken for a literal (`C58_counterexample_linkage`).  Identifiers that begin with `new` or `sizeof` cannot be used in constant expressions;
  floats with two or more integer digits are split.
* An empty string among the extra types makes the scanner stand still (`C60_counterexample_empty`).
* `typedef int __stdcall (f);` ends `process_all` with `TypeError`, so that no further header is read; the same declarator
  of a variable is only skipped with a warning (`C80_typedef_counterexample`).

**Constant expressions**
* `010`, `1u`, `(NAME)`, `N2U`, `-7 % 3`, names that are Python keywords: `C62_counterexample_*`. Comparisons
  bind as in Python: `1 | 2 == 2` is `False` (`C62_counterexample_precedence`), `3 > 2 > 1` a chain
  (`C62_counterexample_chain`). Division gives a float, even `6 / 2`, so enumerators can be floats (`C62_counterexample_division`, `C87_counterexample_enum`).
* `double x = 12.5;` has no value, `double x = 12e3;` is not recognised, `1.5f` has no value, `'a'` is a string
  (`C87_counterexample_*`).
* Calls and unknown names reach the Python process: `exit(1)` in a header is executed (`C63_counterexample_*`).

**Library, calls, ctypes**
* The cached path of a lookup with prefixes raises `NameError` (`C38_counterexample`); a value `None` is
  skipped (`C39_counterexample`), and so is a typedef of `void`, whose class is `None`: `lib.name` raises `NameError` although
  `lib('types', name)` works (`C39_counterexample_void`); a symbolic link gives a second library object (`C40_counterexample_symlink`).
* Default values of a header are never passed (`C84_defaults_unused`): an omitted parameter with a default value is
  left out at the end of the argument list, where ctypes rejects the call because `argtypes` is longer, and has to
  be a pointer, which is generated, in front of a later argument.
* A keyword for a parameter already given by position wins silently, surplus arguments are passed on, and `None`
  among them raises `IndexError` (examples in `Props/CallAll`).
* Default values make parameters auto-generated (`C42_counterexample_default`); `None` for an array passes a
  zeroed array (`C43_counterexample_array`); assignments to auto-generated arguments are dereferenced
  (`C44_counterexample_assign`); `lock_calls=True` makes every call raise (`C45_counterexample`).
* Typedefs of `void`, calling conventions, surplus arguments: `C46_counterexample_*`.
* `lib('structs', name)` with the name of a typedef makes a second class for the struct and registers it for the tag
  (`C73_counterexample_alias`).
* Array types are merged in place, so asking twice for the same two-dimensional array gives another class
  (`C48_counterexample*`), and `arg_c_type` of an array parameter is not the class in `argtypes` (`C74_counterexample_argtype`); bit widths are lost (`C50_counterexample_bits`); more in `C47_…`, `C49_…`, `C50_…`, `C51_counterexample`.
* `short unsigned int`, `long long unsigned int` and other orders of specifiers have no class, `signed char` gets
  `c_char` (`C71_counterexample_*`).
* An omitted `char *`, `wchar_t *` or `void *` argument is passed as a pointer to the class of the parameter, e.g.
  `POINTER(c_char_p)` where `argtypes` has `c_char_p` (`C72_counterexample_char`).
* A struct with a member `value` cannot be read from a result: the member is given in its place
  (`C75_counterexample_value`). The documented call `_, (size, arr) = allocate_array()` (docs/source/get_started/basic_usage.rst:275)
  raises `TypeError` (`C75_counterexample_docs`). (Line 272 there, `_, (arr) = fill_array(arr)`, binds the generator of all
  arguments, which cannot be indexed; the model has lists in place of generators.)
* A struct with an array without length at the end (`struct msg { int n; char data[]; }`) gets a pointer field: 16 bytes
  in place of 4, and reading `data` follows an arbitrary address (`C76_counterexample_open`). Structs with bit-fields are too
  long (`C76_counterexample_bits`). A packed struct on the line before `#pragma pack(pop)` has the layout of an unpacked one
  (`C76_counterexample_pack`, from C21).
* `build_array(lib, 'short', (2, 2), [[1, 2], [3, 4]])` raises `TypeError`, as ctypes converts tuples only; so do flat values for two
  dimensions (`C89_lists_counterexample`). Type strings such as `'short*'` are looked up as a name and raise
  (`C89_star_counterexample`), although the documentation speaks of type strings.
* An omitted `char *` (or `wchar_t *`) argument makes every call raise: `_get_pointer` makes a pointer to a `c_char_p`, which
  `c_char_p` in `argtypes` does not accept (`C90_char_counterexample`).
* A call of a function-like macro whose arguments are on two lines is not replaced (`C92_counterexample_call`); macros are replaced line by
  line.
* `process_enum` records an enum that is merely mentioned (`void f(enum E x);`) with no enumerators, and ignores every body for a tag
  that is recorded: a definition after a mention is lost, with the values of its enumerators (`C96_counterexample_enum`).  For
  structs and unions a body does replace what a mention left.
* Cutting a header in two, or pasting two together, changes what is recorded in two cases: a macro of the second part that uses an
  enumerator or constant of the first has a value only if the files are separate (`C97_counterexample_value`), and a `#pragma pack`
  in force at the cut is forgotten with the next file (`C97_counterexample_pack`; a compiler would keep it across an `#include`).  A pragma right behind the cut, and lines that `preprocess`
  drops in front of it, matter too (`C97_counterexample_line`, `C97_counterexample_dropped`, the faults of C64).
* Disabled code is not without influence in two cases: `#define` without a name raises even where it is skipped
  (`C98_counterexample_define`), and definitions that are skipped are dropped without leaving a line, so that packings after them begin at
  the wrong place (`C98_counterexample_pack`).
* A packing reaches back to the line before its pragma, so that removing a conditional directive between a structure and a pragma changes
  the packing of the structure (`C99_counterexample_after`).
* Macros given to the constructor (`CParser(macros={'N': '4'})`) have no entry in `defs['values']`, unlike those of a header (`C101_counterexample_values`). Since the value of a macro of a header outlives `#undef`, the two also differ in what files record afterwards (`C101_counterexample_undef`).
* With `copy_from` a macro that one header defines and another one undefines is defined again, and headers read afterwards select other text (`C102_counterexample_undef`); the cause is that `rem_def` finds no entry in the record of the current file, so that the record of the first file stays.
* `pretty_signature` joins the items of the result type as strings: for a function that returns a pointer to a function or to an
  array it raises `TypeError`.  `__call__` uses it to report errors, so that an error of such a function is replaced by this `TypeError`
  and nothing is logged (`C95_counterexample_call`, `_result`).  With `lock_call` set this also replaces the error of C45
  (`C95_raised`); `callFunc` in `Model/Call` leaves this out.
* A tab in a string literal becomes blanks, and how many depends on the column of the literal (`C94_counterexample_string`): pyparsing's
  `parseString` and `scanString` expand tabs unless `parseWithTabs` is called.
* A macro whose text names a macro that is defined later is not replaced completely (`C93_counterexample_later`): the text is replaced at
  the definition, in C at the use.
* `cast_to(lib, obj, typ)` raises for a struct object (`C91_objects`), although its documentation speaks of the address of the object;
  type strings such as `'unsigned char*'` raise as well (`C91_counterexample`).

**Searches and initialisation**
* The caller's list of directories is extended in place (`C54_counterexample*`); only two of the four bytes of
  the PE signature are tested (`C55_counterexample`); the output of `file` contains the file name, which may
  mislead the detection (`C56_counterexample_name`); `auto_init(os='win32')` elsewhere enters a type `None`
  (`C57_counterexample_int64`); on Linux the standard header directories are never searched, because the
  code compares with `linux2` (`C53_linux`).
