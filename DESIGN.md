# Design

## Approach

The model is a set of Lean 4 modules under `lean/Verif/`.

- `Model/` holds definitions that follow the code function by function. Each definition cites the file and lines it models, and says where it simplifies.
- `Spec/` holds independent specifications: what a shell, make, ninja, an XML or JSON reader does; what reachability, a walk over directories, a substitution or a completed file is. Some import a module of the model for its types (values, options, outcomes of outside programs) and look-ups in tables, not for its algorithms.
- `Proofs/` holds lemmas.
- `Props/` holds the property theorems `Cnn_...`. Beside them stand examples that show that the hypotheses can be met, and theorems with concrete witnesses where the code does not do what one would expect.

Conventions: Python and JavaScript strings are lists of characters (`Str`). Dictionaries are association lists in insertion order. Exceptions are values of `Except`. Unbounded loops and recursions carry a bound (`fuel`) only where the code itself may not terminate; the theorems then hold for every sufficient bound, or speak about runs that end. Input from outside (file system, network, other programs, regular expressions of the user) enters as parameters over which the theorems quantify. Where the code keeps mutable tables, the tables are threaded through the model and the theorems hold for every history.

Where the code violates the property as one would state it, the negation is proved for a concrete input, the theorem is stated with the condition that excludes it, and claims that are left incomplete by this have the status partial and theorems with the suffix `_partial`.

## Properties

In brackets after a theorem: the axioms it depends on (p = `propext`, c = `Classical.choice`, q = `Quot.sound`; - = none).

### C01 Qualified target names survive a round trip

`QualifiedTarget` and `ParseQualifiedTarget` on character lists, with a model of `str.rsplit(sep, 1)`. The round trip is proved for all parts that meet the side condition on separators; injectivity is a corollary.

- Modules: `Props/Targets`; models `Model.Path`, `Model.Targets`.
- Status: proved.
- Theorems: `C01_qualified_roundtrip` [pq], `C01_qualified_roundtrip_no_toolset` [p], `C01_qualified_injective` [pq], `C01_parse_text` [p], `C01_text_parse` [p]

### C02 Target references resolve to one canonical name

`ResolveTarget` over the parser of C01 and the POSIX path functions. `Spec/Path` gives a path a meaning as a walk over directory names; the case table, the denoted file and idempotence are proved against it.

- Modules: `Props/Targets`; models `Model.Path`, `Model.Targets`.
- Status: proved. POSIX path semantics; symbolic links are not modelled (RelativePath is given the already resolved paths).
- Theorems: `C02_target_and_toolset` [p], `C02_own_file` [p], `C02_file_denotes` [pcq], `C02_no_referrer` [p], `C02_canonical` [pcq]

### C03 Relative paths point back to the same file

`RelativePath` with `os.path.join`, `normpath`, `commonprefix`, `dirname`. Proved against the walk of `Spec/Path`: from the directory the result denotes the path, and no shorter relative path does.

- Modules: `Props/Targets`; models `Model.Path`, `Model.Targets`.
- Status: proved. POSIX branch; the root directory is the one exception to minimality, shown by C03_root_not_minimal.
- Theorems: `C03_relative_path_denotes` [pcq], `C03_relative_path_empty_iff` [pcq], `C03_relative_path_minimal` [pcq], `C03_root_not_minimal` [p], `C03_invert_relative_path` [pcq], `C03_dirname_parent` [pcq], `C03_dirname_no_slash` [p], `C03_unrelative_path` [pcq]

### C04 A quoted argument reaches the POSIX shell unchanged

Model the encoder character by character; independent POSIX word-splitting/quoting state machine as the spec. Prove by induction on the argument.

- Modules: `Props/ShellQuote`; models `Model.ShellQuote`.
- Status: proved. With $ the parameter expansion stays active inside double quotes, as documented in the code.
- Theorems: `C04_shell_argument` [pq], `C04_shell_argument_dollar` [pq], `C04_dollar_stays_active` [p]

### C05 A quoted argument list is the same argument vector

Induction on the argument list using C04's lemma generalised over the tail.

- Modules: `Props/ShellQuote`; models `Model.ShellQuote`.
- Status: proved.
- Theorems: `C05_shell_list` [pq], `C05_shell_list_dollar` [pq]

### C06 The insertion-ordered set behaves as a duplicate-free list

Model the doubly linked list (map key -> prev,next) as in the code; abstraction to a list; refinement for every operation; lift to all histories.

- Modules: `Props/OrderedSet`; models `Model.OrderedSet`.
- Status: proved.
- Theorems: `C06_enumerates` [pcq], `C06_reversed` [pcq], `C06_membership_and_length` [pcq], `C06_pop` [pcq], `C06_added_and_not_removed` [pcq]

### C07 Topological sort is correct or reports a cycle

Model the DFS with visited/visiting sets with fuel shown sufficient; prove order, completeness, and CycleError iff a cycle is reachable.

- Modules: `Props/Toposort`; models `Model.Toposort`.
- Status: proved. For a graph whose reachable part is finite and a recursion limit above the number of nodes.
- Theorems: `C07_sorted_or_cycle` [pcq], `C07_cycle_iff` [pcq], `C07_acyclic` [pcq]

### C08 Write-if-changed never corrupts the target at any crash point

File-system step semantics; the writer is a list of primitive operations; crash = prefix. Prove invariant on every prefix.

- Modules: `Props/WriteOnDiff`; models `Model.WriteOnDiff`.
- Status: proved. Death of the process at any step; not power failure. The Windows branch deletes before renaming: C08_windows and C08_windows_can_lose_both.
- Theorems: `C08_old_or_new` [p], `C08_equal_untouched` [p], `C08_completed` [p], `C08_windows` [p], `C08_can_complete` [p], `C08_windows_can_lose_both` [p]

### C09 Removing duplicates keeps first occurrences in order

Fold with seen-set; prove equal to an order-characterised specification.

- Modules: `Props/Toposort`; models `Model.Toposort`.
- Status: proved.
- Theorems: `C09_uniquer` [pcq], `C09_unify` [pcq], `C09_agree` [pq]

### C10 Dependency order: every target comes after everything it depends on

Model `FlattenToList` in-degree/ready loop. Invariant: everything in the flat list has its dependencies before it.

- Modules: `Props/DepOrder`; models .
- Status: proved.
- Theorems: `C10_order` [pcq]

### C11 Dependency cycles are always rejected and only cycles are rejected

Same model: full length iff acyclic (well-founded argument), error otherwise.

- Modules: `Props/DepOrder`; models .
- Status: proved.
- Theorems: `C11_unknown` [pcq], `C11_outcome` [pcq], `C11_ok_iff` [pcq], `C11_circular` [pcq]

### C12 Reported cycles are real

Model `FindCycles` recursion; prove each output is a closed walk, and existence.

- Modules: `Props/DepOrder`; models .
- Status: proved. When no search root leads to a cycle the error names none: C12_unreachable_not_named.
- Theorems: `C12_reported_are_cycles` [pcq], `C12_some_reported` [pcq], `C12_unreachable_not_named` [p]

### C13 'Settings for all dependents' reach exactly the transitive dependents

Model the recursion with accumulated result; prove set equality with reachability and ordering on acyclic graphs.

- Modules: `Props/DepSettings`; models .
- Status: proved. For an accepted (acyclic) graph.
- Theorems: `C13_deep_dependencies` [pcq]

### C14 'Direct dependent settings' follow exports and nothing else

Model the index-growing loop; closure specification as an inductive predicate.

- Modules: `Props/DepSettings`; models .
- Status: proved. A re-export of a target that is not in the table raises KeyError (C14_unknown_export).
- Theorems: `C14_direct_and_imported` [pcq], `C14_without_exports` [pcq], `C14_unknown_export` [pcq]

### C15 Link lines contain exactly the libraries the linker needs

Model the recursion with accumulator; inductive specification of linkable reachability.

- Modules: `Props/DepSettings`; models .
- Status: proved. For an accepted (acyclic) graph.
- Theorems: `C15_link_against` [pcq], `C15_link_settings` [pcq], `C15_not_linkable` [pq], `C15_final_products` [pcq]

### C16 Wildcard dependencies expand to exactly the matching targets

Model the index loop as in-place splice; specification by flatMap then dedupe.

- Modules: `Props/DepLists`; models `Model.DepLists`, `Model.ListFilters`, `Model.Targets`, `Model.Toposort`.
- Status: proved.
- Theorems: `C16_expansion` [pq], `C16_terminates` [pq], `C16_unique` [pcq]

### C17 Dependency references become fully qualified names of existing form

Model over parsed references.

- Modules: `Props/DepLists`; models `Model.DepLists`, `Model.ListFilters`, `Model.Targets`, `Model.Toposort`.
- Status: proved. The file part is located for a non-empty own file name; the toolset of the referring target is non-empty.
- Theorems: `C17_qualified` [pcq]

### C18 Self-dependency pruning removes exactly self references

Filter model; specification by List.filter facts (membership, order).

- Modules: `Props/DepLists`; models `Model.DepLists`, `Model.ListFilters`, `Model.Targets`, `Model.Toposort`.
- Status: proved. The flag counts by Python truthiness, as in the code.
- Theorems: `C18_self` [pq], `C18_link` [pcq]

### C19 Static libraries keep their original dependencies and only hard ones stay

Model the per-target adjustment using models for C13/C15.

- Modules: `Props/StaticLibs`; models .
- Status: proved. The flat list is the one built for the table, before pruning of unwanted targets.
- Theorems: `C19_adjusted` [pcq]

### C20 Appending lists keeps order and does not repeat singletons

Model `MergeLists` with a value datatype; prove prefix and membership facts for append.

- Modules: `Props/MergeLists`; models `Model.Merge`.
- Status: proved.
- Theorems: `C20_append` [pcq], `C20_strings` [pcq]

### C21 Prepending lists puts new items in front

Same model, prepend: prove for duplicate-free new lists, plus the negation with a witness.

- Modules: `Props/MergeLists`; models `Model.Merge`.
- Status: partial. Prepending is proved for distinct repeat-free singletons and for any list of non-singleton strings; C21_repeated_item shows that a repeated singleton ends up in another order than the property says.
- Theorems: `C21_prepend_partial` [pcq], `C21_strings` [pcq], `C21_repeated_item` [p], `C21_any_strings` [pcq]

### C22 List merge policy suffixes mean what the documentation says

Model `MergeDicts` on association lists; one theorem per policy plus error theorems.

- Modules: `Props/MergeDicts`; models `Model.DependencyGraph`.
- Status: proved.
- Theorems: `C22_untouched` [pq], `C22_keys` [pq], `C22_scalar` [pq], `C22_dict` [pq], `C22_replace` [pq], `C22_set_default` [pq], `C22_append` [pq], `C22_prepend` [pq], `C22_append_and_prepend` [pq], `C22_contradictory` [pq], `C22_succeeds` [pq]

### C23 Paths in merged settings keep pointing to the same file

Model `MakePathRelative` on top of C03's path model.

- Modules: `Props/MergeLists`; models `Model.Merge`.
- Status: proved. For names without backslash; C23_backslash shows that on POSIX a backslash in a file name is turned into a slash.
- Theorems: `C23_path_follows` [pcq], `C23_unchanged` [p], `C23_trailing_slash` [pq], `C23_transitive` [pcq], `C23_backslash` [p]

### C24 List filters: last matching rule wins and nothing is lost

Model the mark-array algorithm; specification: fold over rules, last match wins; partition theorem.

- Modules: `Props/ListFilters`; models `Model.DependencyGraph`, `Model.ListFilters`, `Model.OrderedSet`, `Model.Value`.
- Status: proved. Pattern matching is an arbitrary relation. Filters whose base list name is itself a filter are excluded (NoDoubleFilter).
- Theorems: `C24_filter` [pcq], `C24_others` [pcq], `C24_scalars` [pq], `C24_clean` [pcq], `C24_terminates` [pq]

### C25 Configuration inheritance: parents before children, cycles terminate

Model path-visited recursion with decreasing measure; termination is a theorem by construction; equation characterisation.

- Modules: `Props/Configurations`; models `Model.Configurations`.
- Status: proved. An ancestor reached twice is merged twice (the code tracks the path only); the order theorem covers this.
- Theorems: `C25_inheritance` [pcq], `C25_terminates` [pq], `C25_listed` [pq], `C25_setup` [pq]

### C26 Duplicate keys in a build file are always rejected

Model `CheckNode` over a syntax tree type; iff-theorem by structural induction.

- Modules: `Props/CheckedEval`; models `Model.CheckedEval`.
- Status: proved. The syntax tree comes from Python (ast.parse is not modelled).
- Theorems: `C26_accepts` [pq], `C26_repeated` [pq], `C26_other` [pq], `C26_file` [pq]

### C27 The list of included files is complete and duplicate free

Model DFS with result list; reachability equality.

- Modules: `Props/Load`; models `Model.Load`.
- Status: proved.
- Theorems: `C27_included` [pcq], `C27_missing_entry` [pcq]

### C28 Parallel loading loads every needed build file exactly once

Labelled transition system over loader states with arbitrary completion order; invariants plus termination measure.

- Modules: `Props/Parallel`; models `Model.Parallel`.
- Status: proved. For a non-empty list of files (C28_nothing: an empty list crashes). A worker that succeeds or raises is modelled; a killed worker process is not.
- Theorems: `C28_once` [pcq], `C28_complete` [pcq], `C28_error_iff` [pcq], `C28_stop` [p], `C28_progress` [pcq], `C28_terminates` [pcq], `C28_nothing` [p], `C28_sequential` [pcq], `C28_same` [pcq]

### C29 Variable reference brackets are matched exactly

Model the stack machine; specification by an inductive grammar of balanced groups.

- Modules: `Props/Scan`; models `Model.Scan`.
- Status: proved.
- Theorems: `C29_group` [pq], `C29_unique` [pq]

### C30 Only canonical integers become integers

Model the predicate; specification through decimal printing of integers.

- Modules: `Props/Scan`; models `Model.Scan`.
- Status: proved. ASCII digits; C30_other_digits is the documented deviation for other Unicode digits.
- Theorems: `C30_canonical` [pcq], `C30_roundtrip` [pcq], `C30_injective` [pcq], `C30_other_digits` [pq]

### C31 Conditions pick the first true branch

Model the branch walker with a truth oracle parameter.

- Modules: `Props/Conditions`, `Props/ExpandMore`; models `Model.Expand`, `Model.Value`.
- Status: proved. The truth value of an expression is an arbitrary function of its text and the variables (Python evaluates it).
- Theorems: `C31_entry` [pcq], `C31_malformed` [pcq], `C31_section` [pcq], `C31_no_section` [p], `C31_variables_for_lists` [pcq]

### C32 Variable defaults never override real values

Model over association lists.

- Modules: `Props/Conditions`, `Props/Expand`; models `Model.Expand`, `Model.Value`.
- Status: proved. C32_setting_* state the rule for a whole dictionary with a literal variables section.
- Theorems: `C32_own` [pcq], `C32_enclosing` [pcq], `C32_default` [pcq], `C32_undefined` [pq], `C32_no_section` [p], `C32_automatic` [pq], `C32_automatic_only` [pq], `C32_setting_own` [pcq], `C32_setting_enclosing` [pcq], `C32_setting_default` [pcq]

### C33 Variable expansion is complete or fails

`ExpandVariables`: the scanner for references (without the regular expression engine), nested references, table look-up, phases, list values and errors; shell commands, file lists and shell splitting are parameters. Proved against the substitution semantics of `Spec/Templates` by induction over templates.

- Modules: `Props/Expand`, `Props/ExpandMore`; models `Model.Expand`.
- Status: proved. References to variables (plain and list), nested in names too; commands, file lists and shell words of a value are parameters of the model. Self-reference is shown to be left unexpanded (C33_self_reference).
- Theorems: `C33_text` [pcq], `C33_list` [pcq], `C33_unchanged` [pcq], `C33_complete` [pcq], `C33_complete_list` [pcq], `C33_self_reference` [pq], `C33_undefined` [pcq], `C33_undefined_named` [pcq], `C33_exclusion_list` [pcq], `C33_list_in_scalar` [pcq], `C33_list_in_text` [pcq]

### C34 No two targets of one load are silently merged

Model table building with error; iff-theorem.

- Modules: `Props/DepLists`; models `Model.DepLists`, `Model.ListFilters`, `Model.Targets`, `Model.Toposort`.
- Status: proved. Directories are compared as spelled, as the code does.
- Theorems: `C34_build_targets` [pq], `C34_no_collision` [pq]

### C35 Pruning keeps exactly what the requested targets need

Model work-list closure and pruning; reachability.

- Modules: `Props/Load`; models `Model.Load`.
- Status: proved.
- Theorems: `C35_pruned` [pcq], `C35_unknown` [pq]

### C36 XML output can be read back

Model escape as replacement map; spec: an XML entity decoder; tree writer/reader round trip.

- Modules: `Props/Xml`; models `Model.EasyXml`.
- Status: proved. Attribute values without tabs (a tab is read back as a space: C36_tab_in_attribute). Characters that XML cannot represent at all are excluded. The reader of Spec/Xml.lean covers the XML subset that is written.
- Theorems: `C36_read_back` [pq], `C36_read_back_pretty` [pq], `C36_tab_in_attribute` [p]

### C37 Ninja strings and paths are read back by ninja unchanged

Model replace chains; spec: ninja lexer for strings and paths.

- Modules: `Props/Ninja`; models `Model.NinjaSyntax`.
- Status: proved. Paths contain no newline, no bar token (C37_bar_not_escaped) and no dollar followed by a blank (C37_dollar_blank); ninja syntax has no escape for these or the code does not use it.
- Theorems: `C37_escape` [pq], `C37_escape_defined` [p], `C37_build_statement` [pq], `C37_build_statement_wrapped` [pcq], `C37_bar_not_escaped` [pq], `C37_dollar_blank` [pq]

### C38 Wrapping long ninja lines does not change their meaning

Model wrapping loop; spec: ninja continuation joining.

- Modules: `Props/Ninja`; models `Model.NinjaSyntax`.
- Status: proved. Lines without adjacent blanks at a break point; C38_double_blank_lost and C38_dollar_run_glues show the exceptions.
- Theorems: `C38_wrapping_keeps_tokens` [pcq], `C38_wrapping_keeps_value` [pq], `C38_wrapping_keeps_value_indented` [pq], `C38_double_blank_lost` [pq], `C38_dollar_run_glues` [pq]

### C39 C string escaping is lossless

Model; spec: C literal decoder.

- Modules: `Props/Quoting`; models `Model.Quoting`.
- Status: proved.
- Theorems: `C39_cstring` [pq], `C39_cstring_injective` [pq]

### C40 Make-level quoting of defines and arguments is lossless

Model three layers; spec: make expansion + shell lexer of C04.

- Modules: `Props/Make`; models `Model.ShellQuote`.
- Status: partial. Proved for texts that do not contain a hash preceded by a backslash; C40_backslash_hash shows that the code mangles those.
- Theorems: `C40_shell_argument` [pq], `C40_defines_partial` [pcq], `C40_backslash_hash` [p], `C40_variable_name` [pq]

### C41 Ninja command arguments reach the program unchanged

Model quoting; spec: shell lexer of C04.

- Modules: `Props/ShellQuote`; models `Model.ShellQuote`.
- Status: partial. False for the code when an argument made only of safe characters contains a backslash or ends in a newline; witnesses C41_backslash_lost and C41_final_newline_active.
- Theorems: `C41_ninja_shell_argument_partial` [pq], `C41_ninja_shell_argument_quoted` [pq], `C41_backslash_lost` [p], `C41_final_newline_active` [p]

### C42 Windows response-file quoting is lossless

Model quoting; spec: CommandLineToArgvW parser.

- Modules: `Props/Quoting`; models `Model.Quoting`.
- Status: partial. Proved for arguments that do not end in a backslash run that would escape the closing quote; C42_trailing_backslash is the witness.
- Theorems: `C42_rsp_argument_partial` [pq], `C42_rsp_list_partial` [pcq], `C42_trailing_backslash` [p]

### C43 The saved Windows environment is restored exactly

Model both directions.

- Modules: `Props/Quoting`; models `Model.Quoting`.
- Status: proved.
- Theorems: `C43_environment_block` [pq]

### C44 Version comparison is a total order consistent with equality

Model comparison key with the two infinities; prove the order laws.

- Modules: `Props/VersionOrder`; models `Model.Version`.
- Status: proved. The comparison of the code is equated with the order of PEP 440 written down separately (Spec.EarlierThan) and with equality up to trailing zeros (Spec.SameVersion).
- Theorems: `C44_total` [pcq], `C44_trans` [pcq], `C44_operators` [pcq], `C44_congruence` [pq], `C44_order` [pcq], `C44_equal` [pq]

### C45 Printing and re-parsing a version is lossless

The parser for PEP 440 texts (the regular expression is modelled as a hand-written matcher with its back-tracking order) and the printer. Proved equal to the grammar `Spec.Written`.

- Modules: `Props/VersionText`; models .
- Status: proved. The accepted ASCII texts are exactly those of the separate grammar Spec.Written; versions in normal form round-trip. For a few non-ASCII letters that match without case the claim is false of the code: witnesses C45_dotted_capital and C45_long_s. The limit of Python on the digits of an int is not modelled.
- Theorems: `C45_grammar` [pcq], `C45_printed_written` [pcq], `C45_roundtrip` [pcq], `C45_written_valid` [pcq], `C45_normal_form` [pcq], `C45_show_injective` [pcq], `C45_unambiguous` [pcq], `C45_dotted_capital` [p], `C45_long_s` [p]

### C46 The change analyzer reports exactly the affected targets

The memoised marking of `_DoesTargetDependOnMatchingTargets`, the configuration reading, search for compile targets and the answer of `CalculateVariables`-to-`WriteResult`; state tables are threaded, set orders are arbitrary. Proved by invariants of the tables and reachability.

- Modules: `Props/AnalyzerClaims`, `Props/AnalyzerExamples`, `Props/AnalyzerPaths`; models `Model.Path`, `Model.Targets`.
- Status: proved. Unqualified names stand for the first target that has them; the per-name theorems assume unique names, C46_answer does not. Violations outside the hypotheses: C46_toplevel_parent (a build file at the top of the tree and a source ../x), C46_static_library_order (the rule for unlinked static libraries depends on the order of the target list).
- Theorems: `C46_answer` [pcq], `C46_test_targets` [pcq], `C46_all` [pcq], `C46_compile_needed` [pcq], `C46_compile_suffices` [pcq], `C46_compile_executables` [pcq], `C46_invalid` [pcq], `C46_include_changed` [pq], `C46_terminates` [pcq], `C46_order_independent` [pcq], `C46_toplevel_parent` [pq], `C46_static_library_order` [pq], `C46_changed_file` [pcq]

### C47 Sharding a target splits its sources without loss

Model index striding and name suffixing.

- Modules: `Props/Shard`; models `Model.Shard`.
- Status: proved. For a table whose targets have a non-negative shard count. Violations outside the hypotheses: C47_name_clash (a target that already has the name of a shard is lost), C47_negative (a negative count makes the target vanish).
- Theorems: `C47_shard_name` [p], `C47_names_distinct` [pcq], `C47_sources` [pcq], `C47_targets` [pcq], `C47_unsplit` [pcq], `C47_split` [pcq], `C47_target_list` [pq], `C47_dependencies_known` [pcq], `C47_name_clash` [p], `C47_negative` [p]

### C48 Environment variables are defined before use

Instance of the C07 theorem on the reference graph, reversed.

- Modules: `Props/XcodeEnv`; models `Model.XcodeEnv`.
- Status: proved. The computed settings themselves are a parameter. C48_expand is for texts whose references are in brackets; C48_bare_prefix shows that bare references can be replaced in part.
- Theorems: `C48_sorted` [pcq], `C48_cycle_iff` [pcq], `C48_normalise` [pcq], `C48_expand` [pcq], `C48_variables` [pcq], `C48_bare_prefix` [pq]

### C49 The command line is split into commands and their arguments without loss

Model the word loop after nopt; specification through segmentation.

- Modules: `Props/Cli`; models `Model.Cli`.
- Status: proved. nopt itself (the classification of words into options) is a parameter. Words named like members of Object.prototype: C49_inherited_word. npm_config_ variables override command-line options except loglevel (C49_env_wins).
- Theorems: `C49_split` [pcq], `C49_names` [pcq], `C49_nothing` [pcq], `C49_inherited_word` [p], `C49_env` [pcq], `C49_loglevel` [pcq], `C49_env_wins` [-]

### C50 Commands run in order and the first failure stops the run

Queue machine with arbitrary command outcomes.

- Modules: `Props/Cli`; models `Model.Cli`.
- Status: proved. The outcome of each command is an arbitrary function of the history; exit codes 6 and 7 (unhandled failures of the process) are not modelled.
- Theorems: `C50_run` [pq], `C50_ends` [pq], `C50_rebuild` [p]

### C51 Install only keeps verified headers

Install state machine with arbitrary outcomes of each effect.

- Modules: `Props/Install`; models .
- Status: proved. The world (failures of operations, answers of the network, digests, contents of archives) is an arbitrary parameter. C51_failure needs that removing a directory works. Promise.all is modelled sequentially.
- Theorems: `C51_verified` [pcq], `C51_files` [pcq], `C51_complete` [pcq], `C51_failure` [pcq]

### C52 An ensured install is skipped only when a complete one exists

Same machine with crash points; prove the negation with a witness and the partial statement.

- Modules: `Props/Install`; models .
- Status: partial. C52_skip_partial and C52_redone_partial: an install is skipped only if the directory and its marker are there. The rest of the property is false of the code: C52_interrupted (the marker is written before the checksums are verified, so a crash in between leaves unverified headers that are accepted later).
- Theorems: `C52_skip_partial` [pcq], `C52_redone_partial` [pcq], `C52_interrupted` [pcq]

### C53 Permission problems retry in the temporary directory at most once

Same machine: bound on retries.

- Modules: `Props/Install`; models .
- Status: proved. C53_forgets_version: the second try does not install the version that was asked for on the command line.
- Theorems: `C53_terminates` [pcq], `C53_once` [pcq], `C53_other_errors` [pcq], `C53_retries` [pcq], `C53_gives_up` [pcq], `C53_forgets_version` [pcq]

### C54 Release URLs and directories are determined by version, name and options

`process-release.js` on structured versions (semver is a parameter) and URL texts. URL resolution is modelled for plain URLs; theorems state the resulting texts.

- Modules: `Props/Release`; models `Model.Shard`.
- Status: proved. The version parser is a parameter (prerelease tags without slashes); URLs are plain (no query, fragment or dot components). C54_win_in_dist and C54_v3_arm64 show the two inputs outside the hypotheses for which the library URLs are wrong.
- Theorems: `C54_version` [pcq], `C54_layout` [pcq], `C54_libs` [pcq], `C54_override` [pq], `C54_release` [pcq], `C54_name` [pcq], `C54_dirs_distinct` [pcq], `C54_names_differ` [pcq], `C54_win_in_dist` [p], `C54_v3_arm64` [p]

### C55 Python discovery uses the first acceptable interpreter in the documented order

Model the check list with outcome oracle.

- Modules: `Props/FindPython`; models `Model.FindPython`, `Model.Shasums`.
- Status: proved. What programs print and the version parser are parameters; outcomes do not change during the search. Only NODE_GYP_FORCE_PYTHON is exclusive; an unusable --python is passed over (C55_fallback).
- Theorems: `C55_first` [pcq], `C55_fails` [pcq], `C55_stops` [pcq], `C55_forced` [pcq], `C55_fallback` [pcq]

### C56 Visual Studio discovery picks the newest usable installation

The sources in order, `processData` (parse, filter, sort, pick) and the checks of every installation, with the tools' answers as parameters. Proved against the description of a usable installation in `Spec/FindVS`.

- Modules: `Props/FindVS`; models `Model.FindVS`, `Model.Path`.
- Status: proved. What the tools report, path.resolve and the comparison of Windows paths are parameters. Newest is per source: C56_older_source shows a newer installation, known only to a later source, being passed over.
- Theorems: `C56_none` [pcq], `C56_newest` [pcq], `C56_order` [pcq], `C56_sources` [pcq], `C56_requested` [pcq], `C56_older_source` [p]

### C57 Archive extraction stays inside the target directory

The member check of `update-gyp.py` (`abspath`, `commonprefix` by characters) and the extraction. The full claim is refuted by a witness; what does hold is proved.

- Modules: `Props/UpdateGyp`; models `Model.Path`, `Model.UpdateGyp`.
- Status: partial. C57_written_partial: every member that is written lies in the destination or in a sibling directory whose name extends that of the destination. The full claim is false of the code (C57_sibling: the comparison is by characters). Symbolic links inside the archive are not modelled.
- Theorems: `C57_written_partial` [pcq], `C57_refused` [pcq], `C57_complete` [pcq], `C57_sibling` [p]

### C58 Option lists become a last-wins table and flags regenerate faithfully

`NameValueListToDict`, the option parser (argparse with abbreviations, attached values, `--`) for the options gyp declares, environment defaults, and `RegenerateFlags`. Proved: parsing the regenerated flags leads to the same settings.

- Modules: `Props/Options`; models `Model.Options`, `Model.Path`.
- Status: proved. argparse is modelled for the options gyp declares. Values of one-letter options that are empty or begin with an equals sign are excluded in the statement; C58_empty_value and C58_equals show that they are not regenerated faithfully, C58_config_dir that a relative configuration directory is written unchanged.
- Theorems: `C58_table` [pcq], `C58_names` [pcq], `C58_regenerate` [pcq], `C58_depth` [pcq], `C58_empty_value` [p], `C58_equals` [p], `C58_config_dir` [p]

### C59 Copied settings share no mutable state

A heap of mutable cells: `deepcopy` allocates; later changes are arbitrary interleavings by two holders of references. Proved by disjointness of reachable cells.

- Modules: `Props/SimpleCopy`; models `Model.SimpleCopy`.
- Status: proved. Objects live in a heap; the fuel of the copy is the recursion limit of Python. Later changes are arbitrary interleavings of loads, allocations and in-place changes by two holders of references.
- Theorems: `C59_value` [pq], `C59_copied` [pcq], `C59_unsupported` [pcq], `C59_cyclic` [pcq], `C59_independent` [pq], `C59_values_kept` [pq]

### C60 Checksum list parsing accepts exactly the published entries

The line splitter of the checksum list and the table; `Spec/Shasums` says which entry is published.

- Modules: `Props/Shasums`; models `Model.Shasums`.
- Status: proved. C60_published says exactly which digest is used. C60_stops: the reader stops at the first line that is not an entry, so later entries are not seen (the install then fails, it never accepts more).
- Theorems: `C60_published` [pcq], `C60_stops` [p]

### C61 Circular dependencies between build files are found

`VerifyNoGYPFileCircularDependencies` builds the graph of build files from the target table; proved by the theorems about cycles of C11 and C12.

- Modules: `Props/FileCycles`; models `Model.Load`.
- Status: proved. BuildFile None of an unqualified name is treated as the empty file name.
- Theorems: `C61_outcome` [pcq], `C61_accepted_iff` [pcq]

### C62 Recursive dependency lists are complete and order independent

`DeepDependencies` with its accumulator; proved equal to reachability and independent of the order of earlier calls.

- Modules: `Props/DeepTargets`; models `Model.Load`.
- Status: proved.
- Theorems: `C62_result` [pcq], `C62_terminates` [pcq], `C62_exists` [pcq], `C62_all_targets` [pcq]

### C63 Make rules mean what was asked, blanks in file names included

`WriteMakeRule`, `QuoteSpaces` and the escaping of names; read back by the make reader of `Spec/MakeRules`.

- Modules: `Props/MakeRules`; models `Model.MakeRule`.
- Status: proved. Variable references and wildcards in names are read before make expands them; directives and continuation lines are outside the reader.
- Theorems: `C63_one_output` [pcq], `C63_order_only` [pcq], `C63_several_outputs` [pcq]

### C64 configure's settings win over anything the user passes to gyp

`configure` as a function of options, environment and file system (parameters), producing gyp's argument list; composed with the argument parser of C58 so that the theorems speak about the settings gyp works with.

- Modules: `Props/Configure`; models `Model.Configure`, `Model.Options`, `Model.Shasums`.
- Status: proved. Composed with the argument parser of C58. Path resolution is a parameter whose results do not begin with a dash. C64_double_dash: a bare -- turns the added settings into build files; C64_attached_format: --format=ninja is not noticed and make files are generated as well; C64_extra_word: a version given to configure is also taken for a build file.
- Theorems: `C64_settings` [pcq], `C64_rejected` [pq], `C64_headers` [pcq], `C64_visual_studio` [pq], `C64_configs` [p], `C64_exports` [pq], `C64_result` [p], `C64_runs` [p], `C64_zoslib` [pq], `C64_double_dash` [p], `C64_attached_format` [p], `C64_extra_word` [p]

### C65 The settings that configure writes are read back unchanged

The computation of the settings, `JSON.stringify` with its escapes, the comment header; read back by two readers (JSON and Python literals) of `Spec/Json`.

- Modules: `Props/ConfigGypi`; models `Model.ConfigGypi`, `Model.Shard`.
- Status: proved. Numbers are integers; the reader of the specification covers the part of JSON and of Python literals made of brackets, strings and integers. The configuration to start with (of the running Node or of the headers) is a parameter. C65_null: a null setting is not readable for gyp; C65_minor_ignored: the minor version of Visual Studio is never compared.
- Theorems: `C65_gyp` [pcq], `C65_build` [pcq], `C65_option` [pq], `C65_variables` [pq], `C65_defaults` [pcq], `C65_rest` [p], `C65_minor_ignored` [pcq], `C65_null` [p]

### C66 build runs the tool that was configured, on the right thing, and reports its outcome

`build` as a step machine (settings, solution file, command line, links, exit of the command); the command lines of make and MSBuild are read by small readers in `Spec/Build`.

- Modules: `Props/Build`; models `Model.Build`.
- Status: proved. The command lines of make and MSBuild are read by small readers in Spec/Build. File system errors around the directory of links, which, glob and path.extname are parameters. C66_own_solution: a solution given as argument on Windows becomes a target and no solution is passed; C66_windows_make: with makefiles on Windows targets keep the MSBuild syntax.
- Theorems: `C66_make` [pcq], `C66_configured` [pcq], `C66_msbuild` [pcq], `C66_result` [p], `C66_unconfigured` [p], `C66_own_solution` [p], `C66_windows_make` [p]

### C67 A build file is completed by the files it includes, whatever was read before

The mutually recursive loader over a cache of files already read. `Spec/Includes` describes completion without a cache (an inductive relation); the refinement holds for every history of loads.

- Modules: `Props/Includes`; models `Model.Includes`, `Model.Load`, `Model.Value`.
- Status: proved. Files that include themselves, directly or not, are outside the model (gyp merges the half finished dictionary). A build file included by another one after it was loaded itself is merged in its changed form: C67_worked shows that the result then depends on the order of loading. The evaluation of the text is a parameter (C26).
- Theorems: `C67_completed` [pq], `C67_found` [pq], `C67_contributors` [pcq], `C67_present` [pq], `C67_location` [pcq], `C67_last_wins` [pq], `C67_own` [pq], `C67_worked` [pq]

### C68 Each target is built once per toolset and completed by the defaults of its file

`ProcessToolsetsInDict`, `target_defaults` and the stages of `LoadTargetBuildFile`, on top of C67 and C22; `Spec/TargetFile` describes variants of a target.

- Modules: `Props/TargetFile`; models `Model.Includes`, `Model.Load`, `Model.TargetFile`, `Model.Targets`, `Model.Value`.
- Status: proved. The early processing of variables and conditions is a parameter (C31 to C33). C68_empty_list: an empty list of toolsets removes the target; a text stands for its letters. The included files are named exactly when none of them was loaded as a build file before (as in C67).
- Theorems: `C68_targets` [pq], `C68_others` [pq], `C68_conditions` [pq], `C68_again` [pq], `C68_defaults` [pq], `C68_no_defaults` [p], `C68_precedence` [pq], `C68_depth` [pcq], `C68_included_files` [pcq], `C68_load` [pq], `C68_stages` [pq], `C68_reserved` [p], `C68_empty_list` [p]

### C69 Settings for dependents reach the targets they are for, in order

`DoDependentSettings` and the three rounds around it on the table of dictionaries, composed with the graph queries of C13 to C15 and the merge of C22. Proved with an invariant that the part of the table that is read does not change while the rest is merged in place.

- Modules: `Props/Settings`; models `Model.Includes`, `Model.Load`, `Model.Merge`, `Model.Settings`, `Model.Targets`, `Model.Value`.
- Status: proved. Without a choice of root targets. Settings that contain settings for others, or keys such as type or dependencies, are excluded (PlainSettings).
- Theorems: `C69_reads` [pq], `C69_passed_on` [pcq], `C69_last_offer` [pq], `C69_not_offered` [pq], `C69_lists` [pcq]

### C70 Targets are checked before anything is generated, and rules get exactly their sources

Model the checks as functions to Except; characterise acceptance by independent predicates; the extension of a file is specified by splitting its path, not by splitext; numbers by a relation on values of any depth.

- Modules: `Props/Validate`; models `Model.Includes`, `Model.Load`, `Model.Validate`, `Model.Value`.
- Status: proved. Both directions of every check; parts of the wrong type, which end in another Python exception, count as refused. None is the only value besides texts, numbers, lists and dictionaries.
- Theorems: `C70_types` [pq], `C70_rules` [pcq], `C70_no_rules` [p], `C70_run_as` [pcq], `C70_actions` [pcq], `C70_rest` [pcq], `C70_target` [pcq], `C70_numbers` [pcq]

### C71 Every source of a target is compiled, by the right compiler, to an object of its own

Model `make.py` MakefileWriter.Write as a list of makefile statements; specify how make expands variables and collects rules and pattern rules; follow the variables section by section.

- Modules: `Props/MakeCompile`; models .
- Status: proved. The statements of the target makefile are modelled as data with the text that is written; make's reading (immediate and deferred variables, target-specific variables, pattern rules) is specified in Spec/MakeGraph. The text of single rules is covered by C63.
- Theorems: `C71_objects` [pcq], `C71_compiled` [pcq], `C71_compiler` [pq], `C71_absolute` [pcq], `C71_distinct` [pq], `C71_outside` [pq]

### C72 In the makefile of a target everything is made after what it needs, by its own command

Same model; show for every section which rules it contributes with which variables in force, then read off the relations.

- Modules: `Props/MakeOrder`, `Props/MakeWritten`; models `Model.Shard`.
- Status: proved. Order and rebuild relations are those of the rules make reads from the statements (C63 reads the text of each rule). Names with blanks and other special characters are excluded by TargetOk.
- Theorems: `C72_objects_wait` [pcq], `C72_special_wait` [pcq], `C72_output_waits` [pcq], `C72_action` [pcq], `C72_rule` [pcq], `C72_copy` [pcq], `C72_link` [pcq], `C72_group` [pcq], `C72_written` [pcq]

### C73 The makefiles of a whole build make every product, after the products it depends on

Prove per-target theorems about the install, alias and default goal rules; lift C72 to the list of all makefiles by recording the product of each target; transitive dependencies by induction.

- Modules: `Props/MakeBuild`, `Props/MakeProducts`; models .
- Status: proved. The loop over targets, product names, installation and alias rules are modelled; the rules of all makefiles are read with make's semantics of variables and of rules.
- Theorems: `C73_installed` [pcq], `C73_alias` [pcq], `C73_all` [pcq], `C73_written` [pcq], `C73_name` [pcq], `C73_everything` [pcq], `C73_depends` [pcq], `C73_files` [pcq], `C73_files_output` [pq], `C73_products` [pq], `C73_same_product` [p]

### C74 Actions and rules run with exactly the arguments they were given

Model: actionCommand, ruleCommand. The text of the variable is followed through make's assignment (comments, blanks), the recursive expansion with the values local to the output, and the shell's word splitting (a reader of simple commands separated by semicolons); quoting lemma by induction over the argument with its references.

- Modules: `Props/MakeActions`; models `Model.MakeCommands`.
- Status: proved. For the command line that make passes to the shell when the first output is wanted (C74_action, C74_rule); the shell's reading is the one of Spec/MakeActions. C74_second_output, C74_shared_command and C74_number_sign show what is excluded.
- Theorems: `C74_action` [pcq], `C74_rule` [pcq], `C74_second_output` [pq], `C74_shared_command` [pq], `C74_number_sign` [pq]

### C75 Compilers and linkers get the arguments of the configuration that is built

Model: flag variables of WriteSources/WriteTarget and the command templates of the header; spec: make variables, recipes and shell words; theorem: arguments of compile and link commands.

- Modules: `Props/MakeFlags`; models `Model.MakeCommands`.
- Status: proved. The makefile text of a target is read by a specification of make (assignments with := in order, target-specific variables, references with computed names) and the resulting command line by a specification of the shell. Definitions must not contain newlines or backslash-number sign; flags without quotation marks may refer to the variables of the header and are split by the shell; flags with a quotation mark must not contain dollars, backquotes, backslashes or number signs. Configurations named C_X or CC_X next to X are excluded (C75_shared_variable is the counterexample). macOS is not modelled.
- Theorems: `C75_compile` [pcq], `C75_link` [pcq], `C75_shared_variable` [pq]

### C76 A file is made again exactly if its command or something it is made from has changed

Model: header texts verbatim (Model/MakeHeader); spec: GNU make's expansion with functions (Spec/MakeFunctions), recipes, redirections and builds (Spec/MakeRemake). Proof: the texts are parsed by the kernel, expanded symbolically, the recorded line is lexed and read back; histories by induction.

- Modules: `Props/MakeRemake`; models .
- Status: proved. The canned recipe of the header, expanded by a specification of GNU make's functions; recorded and read back through the shell and make; induction over sequences of builds.
- Theorems: `C76_needed` [pcq], `C76_recipe` [pcq], `C76_history` [pcq], `C76_number_sign` [pcq]

### C77 Messages are shown in order, once, and only when they are due

Model: state machine of the logger (Model/Log). Spec: the moment each message is due by positions in the sequence of events (Spec/Log). Proof: invariant over the sequence, appended event by event.

- Modules: `Props/Log`; models `Model.Log`.
- Status: proved. For every sequence of events, against a specification by positions in the sequence.
- Theorems: `C77_messages` [pcq], `C77_colors` [pcq]

### C78 Preprocessor definitions reach the Windows compiler unchanged

The escaping functions are modelled character by character; readers for MSBuild lists, Visual Studio 2008 lists and Windows command lines are written as specifications; the round trips are proved by induction on the texts with the state of both readers as invariant.

- Modules: `Props/MsvsEscape`; models .
- Status: partial. Proved for every list of definitions without a backslash directly in front of a quote (MSBuild), and with an even number of quotes and no backslash at the end (Visual Studio 2008). The others are refused with a TypeError (exactly these, C78_refused) or misread (C78_vcproj_odd). Definitions that contain the octal number sign themselves are not told apart from those with a number sign.
- Theorems: `C78_msbuild_partial` [pq], `C78_refused` [pq], `C78_vcproj_partial` [pq], `C78_vcproj_odd` [p], `C78_lists` [pq], `C78_options` [pq]

### C79 Settings of Visual Studio projects reach MSBuild with their meaning

the table of settings is generated from MSVSSettings.py declaration by declaration; facts about the table by kernel computation, conversion by induction over the settings

- Modules: `Props/Msvs`; models .
- Status: proved. C79_macros: the sequence of textual replacements is a simultaneous renaming of macros (specified by an inductive relation). C79_settings: exact characterisation of every setting of MSBuild after the conversion; two settings have two sources, for them both sources must not be given (C79_unsigned_char shows what happens otherwise). C79_order, C79_warnings (exactly the warnings), C79_failure (exactly the failures), C79_valid (the result passes the validation), C79_flags (numbers and labels of 30 settings stand for the same options, after Microsoft's documentation). C79_negative_number and C79_browse_information are oddities.
- Theorems: `C79_macros` [pcq], `C79_settings` [pcq], `C79_order` [pcq], `C79_warnings` [pcq], `C79_failure` [pq], `C79_valid` [pcq], `C79_flags` [pcq], `C79_unsigned_char` [pq], `C79_negative_number` [pq], `C79_browse_information` [pq]

### C80 Every source of a target is in its Visual Studio project, once and as what it is

model the lists of sources, the tree of folders with its pruning, exclusions, item types, details and the filters file; prove the files of the tree are a permutation of the fixed sources by induction on the tree

- Modules: `Props/MsvsSources`; models .
- Status: proved. ntpath's normpath, isabs and join are parameters; paths are assumed to be in normal form after fixing. The values rules contribute (extensions, dependencies, idl) are parameters.
- Theorems: `C80_items` [pcq], `C80_excluded` [pcq], `C80_precompiled` [pcq], `C80_stops` [pcq], `C80_type` [pq], `C80_object` [pq], `C80_object_variable` [pq], `C80_objects_apart` [pq], `C80_folders` [pcq], `C80_sources` [pq], `C80_sources_once` [pq], `C80_partly_excluded` [pq], `C80_shared_objects` [pq], `C80_listed_twice` [pq], `C80_unlisted_fails` [pq]

### C81 The root makefile reads the makefile of every target and is made again when a build file changes

Model what GenerateOutput writes into the root makefile and the makefiles of build files; show with the theory of paths (walk) that every name leads to the file that was written, and read the rule and the command back with the specifications of make, the shell and (C58) the option parser.

- Modules: `Props/MakeRoot`; models .
- Status: proved. The readings of make (conditionals with NO_LOAD, include, rules, variables) and of the shell are written out in Spec/MakeRoot.lean, Spec/MakeRules.lean and Spec/MakeActions.lean. Hypotheses: paths without blanks and characters special to make, the top directory is the working directory if there is an output directory (as for node-gyp), the output directory is not the top directory; the theorems under "what the code does not do" show what happens otherwise.
- Theorems: `C81_no_load` [pq], `C81_listed` [pcq], `C81_read` [pcq], `C81_apart` [pcq], `C81_rules` [pcq], `C81_again` [pcq], `C81_command` [pcq], `C81_options` [pcq], `C81_sub` [pcq], `C81_same_directory` [p], `C81_number_sign` [p], `C81_blank` [p], `C81_prefix` [p]

### C82 Every action and copy of a target is run by its Visual Studio project, in order, with its own arguments

Model msvs.py 362-490, 1706-1800, 3885-4010 (ntpath as parameters with the laws of Spec/MsvsActions.lean); specify how cmd runs a batch file and how MSBuild lists are read; invariant of the dictionary of steps; macros are converted line by line.

- Modules: `Props/MsvsActions`, `Props/MsvsCygwin`; models `Model.MsvsActions`, `Model.XcodeEnv`.
- Status: proved. All steps are attached once and in order (C82_items), run until the first failure (C82_runs, for commands that do not set ERRORLEVEL; copies do, C82_unnoticed and C82_copy_sets say what happens then), arguments (C82_arguments) and copies of files (C82_copy). Commands of cygwin are modelled; about them only when the environment is set up is proved. Copies of directories: see the witnesses.
- Theorems: `C82_items` [pcq], `C82_runs` [pcq], `C82_unnoticed` [pcq], `C82_arguments` [pcq], `C82_copy` [pq], `C82_copy_sets` [p], `C82_copy_fails` [pcq], `C82_word` [pq], `C82_quote` [pq], `C82_backslash` [pq], `C82_directory` [p], `C82_top_directory` [p], `C82_spelling` [pq], `C82_no_words` [pcq], `C82_cygwin` [pq]

### C83 The settings Node.js was built with are read from its headers

A grammar of configuration files as an inductive relation between values and parts; the three replacements are computed part by part (no text follows a text), the result is read by the JSON reader by mutual induction on the grammar.

- Modules: `Props/BaseConfig`; models .
- Status: proved. Texts with quotes, backslashes or number signs, and truth values, are outside the grammar of the theorem: witnesses show that they are misread or make configure fall back to the settings of the running Node.js.
- Theorems: `C83_text` [pcq], `C83_headers` [pcq], `C83_own` [pq], `C83_missing` [pq], `C83_always` [pcq], `C83_numberSign` [pq], `C83_truth` [pq], `C83_comma` [pq], `C83_apostrophe` [pq], `C83_blank` [pq], `C83_protected` [pq]

### C84 list, remove and clean touch exactly what they name

The disk as a list of places; path.resolve is shown to find the place the operating system finds, and the commands are compared with the disk without what is below that place.

- Modules: `Props/Remove`; models `Model.Path`, `Model.Remove`.
- Status: proved. The disk has no symbolic links and every operation on something that exists succeeds. Names that are paths lead out of the directory of the development files (witnesses).
- Theorems: `C84_list` [pq], `C84_remove` [pq], `C84_none` [p], `C84_listed` [pq], `C84_others` [pq], `C84_again` [pq], `C84_spelling` [pq], `C84_installed` [p], `C84_clean` [pq], `C84_parent` [p], `C84_path` [p], `C84_iojs` [p], `C84_other_spelling` [p]

### C85 The directory of the running Node.js is found from where node-gyp and node lie

Paths as lists of names; the two guesses are computed from the last names of the two paths, and compared with the layouts given as inductive relations.

- Modules: `Props/NodeRoot`; models `Model.Configure`, `Model.NodeRoot`.
- Status: proved. Paths have slashes; drives and backslashes of Windows are not modelled. A project that has npm among its own dependencies is mistaken for an installation (witness).
- Theorems: `C85_bundled` [pq], `C85_program` [pq], `C85_unknown` [pq], `C85_exports` [pq], `C85_project` [p], `C85_deps` [p], `C85_cwd` [p]

### C86 The Visual Studio solution of a build file has every project it needs, with what to build

The generator's functions are modelled branch by branch (Model/MsvsSolution); a reader of solution files is the specification (Spec/MsvsSolution), and the theorems say what it reads. The tree of folders is handled by invariants on its leaves.

- Modules: `Props/MsvsSolution`; models .
- Status: proved. All order-dependent choices (sets of configurations and entries, traversal of dependencies) are quantified over. Assumed: names without quotes, newlines and backslashes, targets that do not share a project file, and for configurations and folders GUIDs that do not collide.
- Theorems: `C86_variants` [pcq], `C86_projects` [pcq], `C86_guid` [pcq], `C86_dependencies` [pcq], `C86_configurations` [pcq], `C86_exists` [pq], `C86_folders` [pcq], `C86_flat` [pcq], `C86_references` [pcq], `C86_made` [pcq], `C86_underscore` [pq], `C86_target_platform` [pq], `C86_lacking` [pq], `C86_cross` [p], `C86_guid_newline` [-], `C86_same_file` [pq]

### C87 In a Visual Studio project every property has the value given for it in each configuration

Model: `Model/MsvsProps.lean`; evaluator in `Spec/MsbuildProps.lean`; the topological order puts what is used first, so each reference sees the last value (induction over the group).

- Modules: `Props/MsvsProps`; models .
- Status: proved. The group is read by a small MSBuild evaluator (elements in order, conditions on Configuration and Platform compared as text, references to properties replaced). The values theorem is for any calls that are clear (one value for a name and configuration); the target theorems assume the usual target: apart configurations, attributes converted from the old kind, the same extension in all. Drivers, Windows runtime targets and Android toolsets are left out.
- Theorems: `C87_values` [pcq], `C87_made` [pcq], `C87_clear` [pcq], `C87_directories` [pcq], `C87_search_path` [pcq], `C87_kind` [pcq], `C87_details` [pcq], `C87_extensions` [pq], `C87_output_twice` [pq], `C87_circle_between` [p], `C87_spelling` [p], `C87_two_values` [pq]

### C88 In a Visual Studio project every tool gets in each configuration the settings of the target

Lists are heap objects, so that sharing is visible; the calls are folded with an invariant on which settings share an object.

- Modules: `Props/MsvsFinal`; models `Model.MsvsFinal`.
- Status: proved. C88_settings relates the settings that are given to those each tool ends up with (specification `SettingsOf`, one field for each documented setting and a frame for all others); C88_refused says that generation fails exactly when no such settings exist; C88_written that the text in the project file is that of the value, though the list of definitions is shared: the resource compiler may get the reference to inherited definitions twice. Witnesses: C88_shared, C88_import_library, C88_no_product, C88_text_twice.
- Theorems: `C88_settings` [pcq], `C88_refused` [pcq], `C88_written` [pcq], `C88_shared` [pq], `C88_import_library` [pcq], `C88_no_product` [pq], `C88_text_twice` [pcq]

### C89 The compilers, linker and archiver that make runs are those asked for, in the documented order

Model the header lines and the loop over the global settings (MakeTools); specify how GNU make reads the lines and which text a reference stands for; prove the precedence of the sources for every tool by induction over the settings.

- Modules: `Props/MakeTools`; models `Model.MakeTools`.
- Status: proved. For values that fit into a line of a makefile (no newline, no comment sign, no backslash at the end). make reads the text line by line in Spec/MakeTools.lean: origins, conditional and plain assignments, the condition on the origin. Hosts other than Windows.
- Theorems: `C89_read` [pq], `C89_target_compilers` [pq], `C89_target_archiver` [pq], `C89_target_linker` [pq], `C89_host_compilers` [pq], `C89_host_others` [pq], `C89_pli` [pq], `C89_flags` [pq], `C89_zos` [pq], `C89_same_environment` [pq], `C89_refused` [pq], `C89_same_settings` [p], `C89_archiver_setting` [pq], `C89_configured_compiler_stays` [pq]

### C90 The compilation database has one right entry for every C and C++ source

Model compile_commands_json with the path and quoting models of C04/C10; prove by induction over targets and configurations that the entries of a name are the wanted ones, and read the command with the shell specification.

- Modules: `Props/CompileCommands`; models `Model.CompileCommands`, `Model.Path`, `Model.ShellQuote`.
- Status: proved. flavors other than mac; json.dump is not modelled (the values dumped are); the names of configurations of one target are distinct (they are keys of a dictionary)
- Theorems: `C90_entries` [pcq], `C90_directory` [p], `C90_not_listed` [p]

### C91 The dumped graph of dependencies is exactly what the listed targets need

Model the loop with a stack; well-founded recursion on the targets not visited yet; invariant: everything dumped or waiting is needed, and every dependency of what is dumped is dumped or waiting.

- Modules: `Props/CompileCommands`; models `Model.CompileCommands`, `Model.Path`, `Model.ShellQuote`.
- Status: proved. json.dump and the name of the file are not modelled
- Theorems: `C91_graph` [pq], `C91_made` [pq]

### C92 The version of Visual Studio is the one asked for or the first one found, and its compilers are ones that run and compile for the target

Model the detection as a search over places of the registry; the result at each place is nothing, an edition, or an error; induction over the places.

- Modules: `Props/VsVersion`; models `Model.VsVersion`.
- Status: proved. registry, file system, path functions and environment are parameters (only that joining a non-empty path gives a non-empty path is assumed); cygpath and the ways of reading the registry are not modelled
- Theorems: `C92_override` [pq], `C92_refused` [pcq], `C92_selected` [pcq], `C92_fallback` [pcq], `C92_asked` [pcq], `C92_setup` [pq], `C92_setup_native` [pq], `C92_sxs` [p], `C92_override_wins` [p], `C92_2012_last` [p]

### C93 On macOS the flags for the compilers are what xcode_settings ask for, and nothing else

Model GetCflags and its relatives as lists built from a dictionary of settings; prove membership of each flag equivalent to the value of its setting from tables in a separate specification, with independence lemmas for everything else.

- Modules: `Props/XcodeFlags`; models `Model.XcodeFlags`.
- Status: proved. Exact conditions for every flag (tables of switches and of settings with values), order of the flags, independence of settings that are not known, refusals, architectures for Xcode 5.1 and later, conditional settings. Bundles, tests and extensions are not modelled, nor header maps.
- Theorems: `C93_switches` [pcq], `C93_intel` [pcq], `C93_valued` [pcq], `C93_warnings` [pcq], `C93_only` [pq], `C93_only_cxx` [pq], `C93_refused` [pq], `C93_sdk` [pcq], `C93_arch` [pq], `C93_fat` [pq], `C93_archs` [pcq], `C93_c` [p], `C93_cxx_other` [p], `C93_cxx_switches` [p], `C93_cxx_valued` [pq], `C93_objc` [pcq], `C93_conditional` [pq], `C93_device` [pq], `C93_unconditional` [pq], `C93_fat_witness` [p], `C93_text_witness` [-]

### C94 On macOS the linker gets the flags, the name and the libraries that xcode_settings ask for

Model GetLdflags, GetInstallName and AdjustLibraries; membership of flags as for C93, the patterns by induction over the words.

- Modules: `Props/XcodeLink`; models `Model.Merge`, `Model.Path`, `Model.Targets`, `Model.Validate`, `Model.XcodeEnv`, `Model.XcodeLink`.
- Status: proved. Targets that are not bundles; toolset target only where the code asks for it. The patterns for linker flags are modelled as greedy matching with backtracking.
- Theorems: `C94_maps_file` [pq], `C94_maps_section` [pq], `C94_maps_directory` [p], `C94_maps_other` [pq], `C94_per_target` [pq], `C94_standard_at` [pcq], `C94_standard` [pcq], `C94_install_default` [pcq], `C94_install_own` [pq], `C94_install_refused` [pq], `C94_own` [pcq], `C94_same_machine` [pcq], `C94_directories` [pq], `C94_install_flag` [pcq], `C94_switches` [pcq], `C94_valued` [pcq], `C94_framework` [pq], `C94_library` [pq], `C94_library_other` [pq], `C94_sdk_library` [pq], `C94_libraries` [pq], `C94_two_entries_witness` [-], `C94_file_end_witness` [pq], `C94_standard_witness` [p]

### C95 Certificates and the proxy for downloads

the search of a non-greedy pattern is modelled as two searches for a fixed text; the list is characterised by a relation that does not mention them

- Modules: `Props/CaFile`; models `Model.CaFile`.
- Status: proved. The pieces are characterised by an inductive relation on the text; the relation has one solution (`C95_unique`).
- Theorems: `C95_certificates` [pq], `C95_unique` [pq], `C95_no_file` [pq], `C95_proxy` [pq], `C95_null` [pq], `C95_null_witness` [pq]

### C96 Values of the registry

the regular expression as functions with a continuation, longest first

- Modules: `Props/Registry`; models `Model.Registry`.
- Status: proved. The pattern is modelled with its backtracking.  The result for what reg.exe prints for one value is its data; the hypothesis that the key is not printed like the name excludes only keys that begin with the name of the value.
- Theorems: `C96_value` [pq], `C96_found` [pq], `C96_search` [pq], `C96_failed` [pq], `C96_empty_witness` [p], `C96_like_witness` [p]

### C97 The system a build is for

variables as association lists; the precedence of definitions as a theorem on every name

- Modules: `Props/Flavor`; models `Model.Flavor`, `Model.XcodeEnv`.
- Status: proved. Running a compiler and shlex.split are parameters.  The macros are read from the lines of the output with either end of lines; the variables are given by name for make and msvs.
- Theorems: `C97_platforms` [pcq], `C97_platform_other` [pq], `C97_given` [pq], `C97_no_compiler` [pq], `C97_compiler_order` [pq], `C97_compiler_flags` [pq], `C97_macros` [pq], `C97_format` [p], `C97_given_first` [pq], `C97_make` [pq], `C97_msvs` [pq], `C97_tool` [pq], `C97_build_files` [pq], `C97_custom_witness` [-], `C97_number` [pq]

### C98 Rules in Visual Studio projects run for their files with the right inputs, outputs and commands

Rules, their expansion, the makefile of external rules and the adjustment of sources, branch by branch; expansion by pieces, lists by induction.

- Modules: `Props/MsvsRules`; models `Model.MsvsActions`, `Model.MsvsRules`.
- Status: proved. Rules of msvs projects. Quirks proved: a capital letter in the extension of a rule means it is never used (C98_capital); with a project in its own directory the file of a rule stays excluded (C98_trigger_witness) and outputs get the path to the project three times (C98_output_witness); two rules can share a name (C98_name_witness). The text of .props, .targets and .xml files is not modelled.
- Theorems: `C98_expand` [pq], `C98_sources` [pcq], `C98_excluded` [pq], `C98_sources_once` [pq], `C98_native` [pq], `C98_stops` [pcq], `C98_names` [pq], `C98_elements` [pq], `C98_kind` [pcq], `C98_kind_other` [pcq], `C98_capital` [pq], `C98_dependencies` [pq], `C98_external_step` [pcq], `C98_external_makefile` [pcq], `C98_external_stops` [pcq], `C98_cygwin` [pq], `C98_rules` [pcq], `C98_trigger_witness` [pq], `C98_output_witness` [pq], `C98_name_witness` [pq]

### C99 Paths and names in ninja files

Model GypPathToNinja, GypPathToUniqueOutput, ExpandSpecial, ComputeOutput and names of rules; prove meaning of paths with walk, and that files of different sources, targets and toolsets differ.

- Modules: `Props/NinjaPaths`; models `Model.MakeGen`, `Model.Merge`, `Model.MsvsActions`, `Model.NinjaPaths`.
- Status: proved. Stated with the meaning of paths (walk) for flavors other than mac and win; clashes outside of the conditions have witnesses.
- Theorems: `C99_directories` [pcq], `C99_path` [pcq], `C99_arguments` [pq], `C99_product_path` [pq], `C99_intermediate_path` [pq], `C99_same_file` [pcq], `C99_object` [pcq], `C99_absolute` [pcq], `C99_objects_apart` [pcq], `C99_targets_apart` [pcq], `C99_toolsets_apart` [pcq], `C99_object_witness` [pq], `C99_rule_letters` [pq], `C99_rules_apart` [pq], `C99_rule_witness` [p], `C99_file_name` [p], `C99_same_as_make` [pq], `C99_make_witness` [p], `C99_product_place` [pcq], `C99_toolset_witness` [pq]

### C100 order of a build with ninja

the writer gives statements as data; a relation of waiting over all statements; invariants over the list of targets give the stamps that carry the order

- Modules: `Props/NinjaGraph`; models `Model.OrderedSet`.
- Status: proved. For the flavors other than win, mac and ios, one configuration, without bundles; hooks and depfiles are left out.
- Theorems: `C100_compile` [pcq], `C100_link` [pcq], `C100_final` [pcq], `C100_nothing` [pcq], `C100_none_witness` [pq], `C100_all` [pcq], `C100_names` [pcq], `C100_all_witness` [pq]

### C101 compiling and linking with ninja

induction over sources and over dependencies; induction along the order of targets for C++

- Modules: `Props/NinjaLink`; models .
- Status: proved. For the flavors other than win, mac and ios, one configuration; flags of compilers and linkers are left out.
- Theorems: `C101_compiles` [pcq], `C101_linked` [pcq], `C101_archive` [pcq], `C101_link` [pcq], `C101_cpp` [pcq]

### C102 actions, rules and copies in ninja files

induction over actions, rules with their collapsed inputs, and copies; the order through the stamp for needed targets

- Modules: `Props/NinjaGraph`; models `Model.OrderedSet`.
- Status: partial. Missing: rules after a rule with two inputs and three sources do not wait for needed targets, the code drops the dependency (`C102_witness`); the statements themselves are proved in full.
- Theorems: `C102_steps_partial` [pcq], `C102_actions` [pq], `C102_rules` [pq], `C102_copies` [pq], `C102_witness` [pq]

### C103 SDK, tool set and order of a Visual Studio project

Model the search for an SDK, the global properties, the tool set and the list of parts; prove the search against a specification by places and installed versions, the order by a rank of parts.

- Modules: `Props/MsvsGlobals`; models `Model.MsvsGlobals`.
- Status: proved. Text of the parts that other claims are about is a parameter; the registry and directories are parameters; \d is an ASCII digit.
- Theorems: `C103_sdk` [pcq], `C103_version` [pcq], `C103_minimum` [p], `C103_missing` [pcq], `C103_named` [pcq], `C103_arm` [pq], `C103_toolset` [pq], `C103_order` [pq], `C103_imports` [pq], `C103_configurations` [pq], `C103_text_order_witness` [pcq], `C103_twice_witness` [p]

### C104 Loading end to end: dependencies as written decide the order, and finished targets are clean

The passes of `Load` from the targets of all files to the flat list and the finished targets; each pass keeps what the former ones established, so the dependency written in a file is followed to the order, and the keys of a target to the end.

- Modules: `Props/LoadAll`; models `Model.Expand`, `Model.LoadAll`, `Model.Value`.
- Status: proved. Composition of all passes of Load after the files are loaded; the results of the single passes (C10, C16, C17, C18, C24, C25, C34, C35, C70) are used for the whole. Settings that target conditions add too late are refused (C104_late_settings_witness).
- Theorems: `C104_order` [pcq], `C104_circular` [pcq], `C104_targets` [pcq], `C104_finished` [pcq], `C104_settings_gone` [pcq], `C104_late_settings_witness` [p]

### C105 Texts and structure in an Xcode project file are read back

Printer of project files as functions; independent reader (gaps, comments, quoted and bare texts, lists, dictionaries) with fuel; each piece printed is read back whatever follows, composed to values, objects, sections and the file.

- Modules: `Props/Pbx`; models .
- Status: partial. Proved for whole files against an independent reader of property lists. Partial because three kinds of text are not read back: with a carriage return (read as a newline), unquoted with a final newline (lost), unquoted and beginning with // (read as a comment); each has a witness. Required properties are not checked in the model.
- Theorems: `C105_text_partial` [pq], `C105_text_quoted` [p], `C105_comment` [pcq], `C105_value_partial` [pcq], `C105_file_partial` [pcq], `C105_one_reading` [pq], `C105_return_witness` [p], `C105_newline_witness` [p], `C105_slashes_witness` [pq]

### C106 what runs after linking on macOS

model the commands from the settings and the texts of both generators; read them back through make or ninja, `eval` and the shell.

- Modules: `Props/Postbuilds`; models `Model.LoadAll`, `Model.NinjaSyntax`, `Model.Postbuilds`.
- Status: partial. Symbols, stripping and the order are proved for all settings with a known style and plain flags, in makefiles (`C106_make_partial`, through make, the loop, eval and the shell) and ninja files (`C106_ninja`, through ninja and the shell). Missing: in makefiles signing comes before the own commands (`C106_make_signs_first`), `#` cuts the line (`C106_make_hash`), blanks in a row become one (`C106_make_blanks`); arguments with `$` and characters of patterns are left to make and the shell.
- Theorems: `C106_symbols_and_strip` [pcq], `C106_unknown_style` [pq], `C106_make_partial` [pcq], `C106_make_success` [pcq], `C106_make_failure` [p], `C106_ninja` [pq], `C106_ninja_signs_last` [pq], `C106_make_signs_first` [pq], `C106_make_hash` [p], `C106_make_blanks` [p]

### C107 Values and actions in CMake files

a reader for the CMake language (Spec/CMake.lean) run on the text the generator writes; induction over texts, lists and actions

- Modules: `Props/CMake`, `Props/CMakeActions`; models `Model.CMake`, `Model.LoadAll`, `Model.Path`.
- Status: proved. CMake files: values, lists, properties, paths and actions are read back under the rules of cmake-language(7); WriteRules (C116), WriteCopies (C115) and the rest of WriteTarget are not part of this claim. References ${x} are read as references, as the generator intends. Values that CMake lists cannot hold are shown to come out otherwise (C107_list_not), and a list of two or more is added to a variable that is already set (C107_list_adds).
- Theorems: `C107_variable` [pq], `C107_list` [pq], `C107_list_adds` [pq], `C107_list_not` [pq], `C107_defines` [pq], `C107_flags` [pq], `C107_path` [pcq], `C107_plain_path` [pcq], `C107_sources` [pq], `C107_actions` [pcq], `C107_directories` [p], `C107_option_word` [p], `C107_target_name` [pq]

### C108 Sources, flags and properties of a CMake target

Model the writer of a target and read its text with the reader of C107; state what CMake is then told.

- Modules: `Props/CMakeTarget`; models `Model.CMakeTarget`.
- Status: proved. For a target whose texts are read by CMake as their meanings (TargetFits), reading the text succeeds and the commands read have the stated properties. The settings of Xcode and the directory and name of the product are not modelled.
- Theorems: `C108_readable` [pcq], `C108_kinds` [pq], `C108_made` [pcq], `C108_uncompiled` [pcq], `C108_flags` [pcq], `C108_defines` [pcq], `C108_link_flags` [pcq], `C108_by_default` [pcq], `C108_includes` [pcq], `C108_shared_file` [p]

### C109 Dependencies and libraries of a CMake target

As C108, for add_dependencies and target_link_libraries.

- Modules: `Props/CMakeDeps`, `Props/CMakeTarget`; models `Model.CMakeTarget`, `Model.Toposort`.
- Status: proved. The dependencies, libraries and order that CMake is told, as an equality of lists for linking and an equivalence for the order.
- Theorems: `C109_made_after` [pcq], `C109_actions_after` [pcq], `C109_linked` [pcq], `C109_none_forgotten` [pcq], `C109_sdk` [pq]

### C110 Object files among the sources of a CMake target

As C108; the property fails, the witnesses say how.

- Modules: `Props/CMakeTarget`; models `Model.CMakeTarget`.
- Status: partial. The code marks the wrong files: those that are not objects (C110_marked), and fails when there are none (C110_written, C110_fails). Proved: the objects are among the files of the target all the same (C110_listed_partial).
- Theorems: `C110_marked` [pcq], `C110_written` [pq], `C110_listed_partial` [pcq], `C110_fails` [p]

### C111 Names of CMake targets

Model the namer; characterise conflicts by counting; witnesses for the collisions.

- Modules: `Props/CMakeDeps`; models `Model.Toposort`.
- Status: partial. Which name a target gets (C111_name, C111_shape); names differ unless those with files are equal or one is the other without (C111_distinct_partial). Both can happen (C111_collisions), so the full property fails.
- Theorems: `C111_name` [pcq], `C111_shape` [p], `C111_distinct_partial` [pcq], `C111_collisions` [p]

### C112 The files of an Xcode project lead to where the paths in the gyp file do

Model groups as trees and places as lists of indices; induct on the depth of the path, using the denotation of paths, for where the reference leads, for what stays and for adding again; mutual induction over trees for merging.

- Modules: `Props/XcodeGroups`; models .
- Status: partial. Proved for relative paths that name no variable, and for all trees when groups are merged. Adding again is proved for files only: a directory added twice fails. Absolute paths and variables inside a path lead elsewhere; all three have witnesses.
- Theorems: `C112_found_partial` [pcq], `C112_flat` [pcq], `C112_stays` [pq], `C112_again` [pcq], `C112_directory_twice` [p], `C112_absolute` [p], `C112_variable_inside` [p], `C112_leading_variable` [pcq], `C112_merged` [pq]

### C113 The parts of a macOS bundle are where the system looks for them

Model the functions of the bundle paths; a specification lists the directories of the layout; show that the joined texts are those paths, and compare the texts of places for what is apart or the same.

- Modules: `Props/MacBundle`; models `Model.MacBundle`.
- Status: proved. Names are taken to be nonempty and without a slash. A resource that is called just .xib or ..storyboard is left out of C113_resource and C113_same.
- Theorems: `C113_layout` [pq], `C113_name` [pq], `C113_no_bundle` [p], `C113_program` [pq], `C113_resource` [pq], `C113_resources` [pq], `C113_apart` [pq], `C113_same` [pq], `C113_taken` [p]

### C114 The ids of an Xcode project are stable and distinct

model the hashables of groups and files, the framing of what is hashed, the folded id and the check for collisions; prove that merging groups of directories leaves the chains of files alone (induction over the tree, splitting of joined paths), that adding a file keeps the others, that the framing can be decoded (UTF-8 is a prefix code), and that the check is the absence of duplicates.

- Modules: `Props/XcodeIds`; models `Model.XcodeIds`.
- Status: partial. The full property fails: the root group Source of a project whose only directory is called Source loses its name on merging, so that the ids of all files change when a file is added beside it (C114_same_name). Proved for all other trees that adding relative paths makes (C114_directories shows that they meet the hypothesis). What is hashed for targets, build phases and configurations is not modelled.
- Theorems: `C114_hashed` [pcq], `C114_form` [pcq], `C114_same` [pq], `C114_differ` [pcq], `C114_unique` [pq], `C114_merged_partial` [pq], `C114_directories` [pcq], `C114_kept_partial` [pcq], `C114_files` [p], `C114_same_name` [pq]

### C115 CMake files copy what the gyp file says

model WriteCopies as the text it writes; read that text back with the reader of CMake from C107, prove what the two commands are told, and that the watched paths lead to where the words of the commands do.

- Modules: `Props/CMakeCopies`; models `Model.CMakeCopies`.
- Status: partial. Proved for sources and destinations that can stand bare in a CMake file (letters, digits, some signs, and references to variables). The code writes them unquoted, so that a name with a blank falls apart and the wrong files are copied (C115_blank).
- Theorems: `C115_copies_partial` [pq], `C115_nothing` [pq], `C115_which` [pq], `C115_places` [pcq], `C115_blank` [p]

### C116 CMake files run the rules of a target for each source

the rules written as text; a reading of set, unset and the custom commands of CMake; induction over rules and sources with the variables between them

- Modules: `Props/CMakeRules`; models `Model.CMakeRules`.
- Status: partial. Proved for outputs, directories and messages that can stand bare once the variables of the source are put in. The code writes the directories unquoted: with a source that has no directory and an output beside it make_directory is told nothing (C116_no_directory). Paths are cleaned up before the variables are put in, so that an output above the directory of the source is looked for elsewhere (C116_above); C116_places says where an output leads with the variables taken as names.
- Theorems: `C116_rules_partial` [pcq], `C116_places` [pcq], `C116_sources` [pq], `C116_no_directory` [p], `C116_above` [p]

### C117 Version specifiers take the versions of PEP 440

Model the comparison functions on texts as the code has them, prove that splitting a printed version gives its numbers and stages, and reduce each operator to the order of C44; sets and filters by induction on the lists.

- Modules: `Props/Specifiers`; models `Model.Specifiers`.
- Status: partial. The operators, series, sets, filters and the treatment of pre-releases are proved for all versions and all ways to write them; ~= is proved for versions as they are printed, and is wrong for other spellings (C117_compatible_v, C117_compatible_words). The pattern that takes the operator and version out of a text is not modelled.
- Theorems: `C117_operators` [pcq], `C117_series` [pcq], `C117_compatible_partial` [pcq], `C117_compatible_v` [p], `C117_compatible_words` [p], `C117_greater_gap` [p], `C117_arbitrary` [pcq], `C117_prereleases` [pcq], `C117_contains` [pq], `C117_filter` [pcq], `C117_set_prereleases` [pq], `C117_set_contains` [pq], `C117_set_meets` [pcq], `C117_installed` [pcq], `C117_told` [p], `C117_set_filter` [pcq], `C117_empty_set` [pcq], `C117_no_fallback` [p], `C117_arbitrary_text` [pq]

### C118 Xcode projects list files and groups in a fixed order

Model the two comparisons, SortGroup as a mutual recursion on trees, and SortGroups; prove sortedness and permutation at each level by induction on the tree, canonicity from antisymmetry on distinct names, and the order of the main group by an order of places.

- Modules: `Props/XcodeSort`; models `Model.XcodeGroups`, `Model.XcodeSort`.
- Status: proved. The comparison of the main group is modelled with its question about the class of the first object only; files with the name of a place in the main group are outside the theorem on the main group (witness C118_files_in_main_group).
- Theorems: `C118_sorted` [pcq], `C118_any_order` [pcq], `C118_main_group` [pcq], `C118_products` [pq], `C118_main_any_order` [pcq], `C118_files_in_main_group` [p]

### C119 Header maps of frameworks lead to the right headers

Model filling of the table with a bound of one round, offsets and the intended texts; prove by an invariant on the names already in (number of filled slots, contents, and success of the search), the free slot from counting, the places by induction over the slots.

- Modules: `Props/HeaderMap`; models `Model.HeaderMap`.
- Status: partial. The table and the numbers are right for all lists (C119_lookup, C119_places, C119_header_partial); the file is never complete, since the texts are given to struct.pack as str, which Python 3 refuses, and an empty list has no longest path (C119_never_finished).
- Theorems: `C119_lookup` [pcq], `C119_one_result` [p], `C119_places` [pq], `C119_header_partial` [pcq], `C119_never_finished` [pcq]

### C120 Merged property lists, entitlements and profiles for signing

Model property lists as mutual inductive types; prove merging by induction on the path, expansion of texts by induction on the variables over pieces of text, and the choice of profiles by an invariant on the table of patterns.

- Modules: `Props/MacSign`; models `Model.MacSign`, `Model.MsvsActions`.
- Status: proved. Reading and writing of property lists (plistlib.readPlist and writePlist, gone from Python 3.9) and fnmatch are outside the model; fnmatch is a parameter. Values with a dollar in them are expanded again (witness C120_twice) and are outside C120_text.
- Theorems: `C120_merge_two` [p], `C120_merge` [pq], `C120_text` [pcq], `C120_expand` [pq], `C120_values` [pq], `C120_entitlements` [pq], `C120_twice` [pq], `C120_profile` [pq], `C120_profile_last` [pcq], `C120_named` [-]

### C121 Environment markers mean what their text says

Model the recursive parser on tokens, the groups of the evaluator and the formatter; specify by an or/and/atom grammar with strict value; prove that the parser accepts exactly the grammar and that value and text agree, by mutual induction.

- Modules: `Props/Markers`; models .
- Status: partial. Comparisons are tokens whose outcome is a parameter. Writing and reading again is proved for markers without brackets right inside brackets; for the others it is false (C121_double).
- Theorems: `C121_value` [pcq], `C121_only` [pcq], `C121_unambiguous` [pcq], `C121_roundtrip_partial` [pcq], `C121_double` [p]

### C122 Targets with large PDB files get a helper that writes to the same PDB file

Model one step of the loop on ordered dictionaries; show that suffixed names are injective and never meet, and prove by induction on the marked targets what each key holds in the end.

- Modules: `Props/LargePdb`; models .
- Status: proved. Configurations hold the keys that are read or written and a rest; targets share no configurations. The condition that no target has one of the new names is needed (C122_clash).
- Theorems: `C122_list` [pq], `C122_target` [pcq], `C122_helpers` [pcq], `C122_agree` [pq], `C122_others` [pq], `C122_stops` [pcq], `C122_one_file` [pcq], `C122_clash` [p]

### C123 Canonical names and versions tell what is the same

Model the substitutions and the patterns by recursion on the text; relate the canonical form to an inductive relation of same names by induction on the length, and the canonical version to the printed form of the trimmed version, with C44 and C45.

- Modules: `Props/Canonical`; models .
- Status: partial. Recognising canonical names is proved for texts without two dashes in a row and without a newline at the end; for the others it is false (C123_double_dash, C123_newline). All about forms of names and versions is proved in full for ASCII.
- Theorems: `C123_name` [pcq], `C123_name_twice` [pcq], `C123_name_form` [pcq], `C123_validate_partial` [pcq], `C123_is_normalized_partial` [pcq], `C123_canonical_taken` [pcq], `C123_double_dash` [p], `C123_newline` [p], `C123_version` [pcq], `C123_version_read` [pcq], `C123_no_version` [p]

### C124 File names of wheels and source archives are taken apart in one way

Model parse_wheel_filename, parse_sdist_filename and parse_tag; the specification is the shape of PEP 427 names; accepted names are exactly those of the shape, and the reading is unique.

- Modules: `Props/WheelNames`; models .
- Status: proved. ASCII file names without a line end; the order of tags in the set is left open, as in the code.
- Theorems: `C124_wheel_sound` [pcq], `C124_wheel_complete` [pcq], `C124_wheel_unique` [pcq], `C124_sdist` [pcq], `C124_empty_parts` [p]

### C125 The tags of wheels for a system are exactly the fitting ones, best first

Model both platform_tags, cpython_tags and compatible_tags; membership as an equivalence with a specification of what fits, order by ranks along the list.

- Modules: `Props/SysTags`; models .
- Status: proved. The ELF header and the version of libc are given; Python versions have a major and a minor number; ABIs and architectures are listed once; earlier major versions of glibc count with minor versions up to 50, as in the code.
- Theorems: `C125_manylinux` [pcq], `C125_manylinux_order` [pcq], `C125_manylinux_read` [pcq], `C125_abi` [pq], `C125_manylinux_none` [p], `C125_before_two` [p], `C125_musllinux` [pcq], `C125_musllinux_order` [pcq], `C125_cpython_order` [pcq], `C125_cpython` [pcq], `C125_compatible` [pcq], `C125_compatible_order` [pcq]

### C126 The platform tags of macOS are exactly those of releases and formats it can run, latest first

Model mac_platforms and _mac_binary_formats; membership as an equivalence with tables of what runs where; order along the list; later systems by the equivalence.

- Modules: `Props/MacTags`; models `Model.MacTags`.
- Status: proved. The version and the architecture are given; asking the system for them is not modelled.
- Theorems: `C126_exact` [pcq], `C126_read` [pcq], `C126_order` [pcq], `C126_newer` [pcq], `C126_powerpc` [p]

### C127 The header of an ELF file is read from the right places

Model struct.unpack over the format strings; the specification gives absolute places of fields and positional values of bytes; the loop by induction on the number of entries.

- Modules: `Props/ElfFile`; models `Model.ElfFile`.
- Status: proved. Bytes are natural numbers; the bytes of the interpreter are not decoded; a seek beyond what the system allows is not modelled.
- Theorems: `C127_header` [pcq], `C127_interpreter` [pcq], `C127_one` [pcq]

### C128 The Xcode wrapper around ninja shows the right targets, settings and files

Model IsValidTargetForWrapper, the shared dictionary of settings in _TargetFromSpec and the lists made by CreateWrapper; settings by induction on the configurations, files by membership.

- Modules: `Props/XcodeNinja`; models `Model.XcodeNinja`.
- Status: partial. Own settings hold where the configurations agree; in general the settings of one configuration get into the others (C128_leak). Regular expressions are arbitrary sets of names; relpath is any function.
- Theorems: `C128_targets` [pcq], `C128_settings` [pq], `C128_own_settings_partial` [pq], `C128_leak` [p], `C128_same_name` [-], `C128_files` [pcq]

### C129 Visual Studio starts a target as its run_as says

Model the quoting, the search in PATH and the choice of what to run; state how a program reads its command line as a state machine; prove by induction over arguments and characters that reading undoes quoting.

- Modules: `Props/MsvsUser`; models `Model.MsvsUser`.
- Status: partial. The arguments are passed on if they are not empty and have no backslash together with a quote or blank (C129_arguments_partial); an empty argument is lost (C129_empty_argument) and a backslash before the closing quote joins two arguments (C129_backslash). A program name with a blank is searched with its quotes and not found (C129_quoted_command). The reader is the C runtime rule with doubled quotes, stated in Spec/MsvsUser.lean. Writing the XML and the host name are not modelled.
- Theorems: `C129_environment` [pq], `C129_arguments_partial` [pq], `C129_empty_argument` [p], `C129_backslash` [p], `C129_stops` [p], `C129_command` [p], `C129_quoted_command` [p], `C129_written` [p]

### C130 Commands under a lock run one at a time and report their own status

Model processes and their steps as a transition system over lists; prove exclusion and own status as invariants over all orders of steps, and freedom from deadlock by a decreasing measure.

- Modules: `Props/LockTool`; models `Model.LockTool`.
- Status: partial. Exclusion and freedom from deadlock hold for both tools, the status for the tool of macOS. The tool for AIX, Solaris and OS/400 drops the status of the command, so a failed link counts as successful (C130_status_lost), and fails instead of waiting if the lock is taken (C130_refused); its statuses are right only if all commands succeed and no lock is shared (C130_status_partial). The behaviour of fcntl locks is part of the model of the system; ends by signals are not modelled.
- Theorems: `C130_exclusive` [pq], `C130_mac_status` [pq], `C130_no_deadlock` [pq], `C130_status_partial` [pq], `C130_status_lost` [pq], `C130_refused` [pq]

### C131 The version of the C library is read from the right place

Model the two readers; state in Spec/LibcVersion.lean where the version stands in the text; prove equivalence with maximal runs of digits and, for musl, by induction over the lines.

- Modules: `Props/LibcVersion`; models `Model.LibcVersion`, `Model.Load`, `Model.Specifiers`, `Model.Version`.
- Status: proved. Texts are ASCII and lines end with line feeds; asking the system for the text (confstr, ctypes, running the loader) is not modelled.
- Theorems: `C131_glibc` [pcq], `C131_written` [pcq], `C131_musl` [pcq], `C131_musl_one` [pcq]

No property is left as not expressible. What a property does not cover is said in its status line.

## Where the code deviates

Each of these is a theorem about the model with a concrete input.

- C03: The relative path from below the root directory to the root itself is one step longer than needed (`C03_root_not_minimal`).
- C08: On Windows the old file is deleted before the new one is renamed: a crash in between loses both (`C08_windows_can_lose_both`).
- C12: If no search root leads to a cycle, the circular dependency error names no cycle (`C12_unreachable_not_named`).
- C14: A re-exported target that is not in the table ends in `KeyError` (`C14_unknown_export`).
- C21: Prepending a list with a repeated singleton puts it at another place than documented (`C21_repeated_item`).
- C23: On POSIX a backslash in a file name becomes a slash when settings are merged from another directory (`C23_backslash`).
- C28: Parallel loading of no build files at all crashes (`C28_nothing`).
- C30: Digits other than ASCII ones are treated in the Python way (`C30_other_digits`).
- C33: A variable whose value is a reference to itself is left unexpanded (`C33_self_reference`).
- C36: A tab in an attribute value is read back as a blank (`C36_tab_in_attribute`).
- C37: A bar in a path and a dollar followed by a blank are not escaped for ninja (`C37_bar_not_escaped`, `C37_dollar_blank`).
- C38: Wrapping a line loses one of two adjacent blanks and glues after a run of dollars (`C38_double_blank_lost`, `C38_dollar_run_glues`).
- C40: A hash preceded by a backslash is mangled by the escaping for make (`C40_backslash_hash`).
- C41: Arguments made of safe characters are not quoted, although the test lets a backslash and a final newline pass (`C41_backslash_lost`, `C41_final_newline_active`).
- C42: A trailing run of backslashes escapes the closing quote in a response file (`C42_trailing_backslash`).
- C45: The dotted capital I and the long s match without case and are accepted in versions (`C45_dotted_capital`, `C45_long_s`).
- C46: A build file at the top of the tree and a source above it is not matched; the rule for unlinked static libraries depends on the order of targets (`C46_toplevel_parent`, `C46_static_library_order`).
- C47: A target that has the name of a shard is lost; a negative shard count removes the target (`C47_name_clash`, `C47_negative`).
- C48: A bare reference can be replaced in part (`C48_bare_prefix`).
- C49: Words such as `constructor` hit members of `Object.prototype`; `npm_config_` variables override options of the command line (`C49_inherited_word`, `C49_env_wins`).
- C52: The install marker is written before the checksums are verified: a crash in between leaves unverified headers that are accepted later (`C52_interrupted`).
- C53: The retry in the temporary directory forgets the version given on the command line (`C53_forgets_version`).
- C54: A distribution URL containing `win` and version 3 on arm64 lead to wrong library URLs (`C54_win_in_dist`, `C54_v3_arm64`).
- C56: A newer Visual Studio known only to a later source is passed over (`C56_older_source`).
- C57: Members may be written to a sibling whose name extends that of the destination (`C57_sibling`).
- C58: Empty values and values beginning with an equals sign of one-letter options, and a relative configuration directory, are not regenerated faithfully (`C58_empty_value`, `C58_equals`, `C58_config_dir`).
- C60: The checksum list is not read beyond the first line that is not an entry (`C60_stops`).
- C64: A bare `--` turns configure's settings into build files; `--format=ninja` in one word is not noticed; a version argument is taken for a build file (`C64_double_dash`, `C64_attached_format`, `C64_extra_word`).
- C65: A null setting makes the file unreadable for gyp; the minor version of Visual Studio is never compared (`C65_null`, `C65_minor_ignored`).
- C66: On Windows a solution given as argument becomes a target; with makefiles on Windows targets keep the MSBuild syntax (`C66_own_solution`, `C66_windows_make`).
- C67: A build file included after it was loaded as a build file is merged in its processed form (`C67_worked`).
- C68: An empty list of toolsets removes the target (`C68_empty_list`).
- C71: A source given by an absolute path is in the list of objects, but no rule compiles it; sources above the directory of the build files get objects outside of the directory of their target, so that two targets write the same file (`C71_absolute`, `C71_outside`).
- C73: With an output directory for generated files, targets of the same name in different directories may share one makefile; programs of the same name for host and target share one product, as do libraries `x` and `libx` of one directory (`C73_files_output`, `C73_same_product`).
- C75: Configurations `Debug` and `C_Debug` share the variable for the C flags of the first (`C75_shared_variable`).
- C74: The directories are absolute for the first output of an action only: when make wants the second one the command is run with relative directories after changing directory (`C74_second_output`).
- C74: Two actions whose names differ in a character that is not kept share the variables for their commands and outputs: one output is made by the wrong command and nothing waits for it (`C74_shared_command`); a number sign in an argument ends the command there (`C74_number_sign`).
- C76: A command with a number sign is taken for a changed one in every build, as make reads the recorded one only up to that sign (`C76_number_sign`).
- C78: A definition with a backslash in front of a quote, the usual way to give a C string, makes the generator for Visual Studio stop with a `TypeError`: a string is multiplied by a float (`C78_refused`).
- C78: In projects of Visual Studio 2008 a definition with an odd number of quotes runs into the next one, and a backslash at the end becomes a quote (`C78_vcproj_odd`).
- C79: `DefaultCharIsUnsigned` adds `/J` to `AdditionalOptions`: given before the options it is lost, given after a list the options become the text of a Python list (`C79_unsigned_char`).
- C79: A negative `Culture` is converted to `0x-005`, which the program's own validation refuses (`C79_negative_number`).
- C79: `BrowseInformation` 1 (`/FR`) and 2 (`/Fr`) become the same value (`C79_browse_information`).
- C80: A file that is excluded in some configurations but not in all (an excluded precompiled source, say) ends the run with a `TypeError`: `_GetConfigurationCondition` is called without its third argument (`C80_partly_excluded`).
- C80: `a.c` and `a.cc` of one directory, and `a.c` and `../a.c`, have one object (`C80_shared_objects`).
- C80: Two spellings of an excluded source are two items (`C80_listed_twice`).
- C80: With `msvs_list_excluded_files=0` an excluded file below the common directory of all files fails an assertion (`C80_unlisted_fails`).
- C81: If the output directory is the top directory itself, `srcdir` is empty: the root makefile depends on a file in the root directory of the disk and is made again in the home directory (`C81_same_directory`).
- C81: An option with `#` cuts the command that makes the root makefile again (`C81_number_sign`).
- C81: A makefile whose path has a blank is not read (`C81_blank`).
- C81: The makefile of a build file also makes targets of build files whose names begin the same (`C81_prefix`).
- C82: A copy sets the variable ERRORLEVEL, which hides its own failure and the failures of all commands after it in the same item (`C82_copy_sets`, `C82_unnoticed`, `C82_copy_fails`).
- C82: An argument of an action that is not a path and not a switch gets the path to the build file in front (`C82_word`).
- C82: Quotes in arguments of actions are not protected, and a backslash at the end of a switch protects the closing quote (`C82_quote`, `C82_backslash`).
- C82: A copied directory goes to another place than the one made for it, and a directory beside the build file is looked for in the directory of the project (`C82_directory`, `C82_top_directory`).
- C82: Two spellings of one input give two items for one file (`C82_spelling`).
- C83: A config.gypi with a number sign in a text, a Python truth value, a comma before a closing bracket, a text with an apostrophe, or a blank before the end of a line inside a continued text is given up, and the settings of the running Node.js are used for other headers (`C83_numberSign`, `C83_truth`, `C83_comma`, `C83_apostrophe`, `C83_blank`).
- C83: A protected apostrophe in config.gypi is read as a quotation mark (`C83_protected`).
- C84: `remove` accepts a path: `remove ..` deletes the parent of the directory of the development files (`C84_parent`, `C84_path`).
- C84: `remove` of a version of io.js says that it is gone although it is installed and listed (`C84_iojs`); a directory named like another spelling of a version cannot be removed (`C84_other_spelling`).
- C85: With an npm among the dependencies of a project, or any directory named `deps` at that place, another directory is taken for that of Node.js (`C85_project`, `C85_deps`).
- C85: If no directory is found, the exports file is looked for in the working directory (`C85_cwd`).
- C86: A configuration with an underscore in its name (`Debug_Static`) is `Debug_Static|Win32` in the solution but `Debug|Win32` in the project file (`C86_underscore`); `msvs_target_platform` is used in the solution but not in the project file (`C86_target_platform`); a project is told to build configurations it lacks (`C86_lacking`).
- C86: With several toolsets the solution offers only configurations whose platform is spelled `arm64`; for `ARM64` (which the settings made by node-gyp contain) it offers `Debug|Win32` and `Release|Win32` (`C86_cross`).
- C86: `t#host` and `t_host#target` of one directory share a project file (`C86_same_file`); a GUID ending in a newline is accepted (`C86_guid_newline`).
- C87: With a different extension in each of two configurations both get the one that is last in the alphabet, as `TargetExt` is added twice (`C87_extensions`).
- C87: A relative `OutputDirectory` in `msbuild_configuration_attributes` gets the way to the build file twice (`C87_output_twice`).
- C87: Properties that refer to each other only across configurations are refused (`C87_circle_between`); references in another case are not ordered (`C87_spelling`); a setting named like one of the generator's own loses to it or wins by the alphabet (`C87_two_values`).
- C88: The definitions of the resource compiler are followed by `%(PreprocessorDefinitions)` twice, because the compiler and the resource compiler share one list, which is changed when it is written (`C88_shared`).
- C88: A loadable module with `msvs_requires_importlibrary` is refused with an error about a non-list setting (`C88_import_library`); so is a command before the build given twice (`C88_text_twice`).
- C88: Without a product the extension of the product becomes a property of the whole project (`C88_no_product`).
- C89: the global setting `AR` never has an effect with GNU make, which has an archiver of its own (`C89_archiver_setting`).
- C89: the compiler of the environment gyp ran in is written into the makefile, so that `make CC=...` does not change it (`C89_configured_compiler_stays`).
- C90: The `directory` of the entries in the compilation database is the output directory of the generator's flags, not a whole path and not where the makefiles run commands (`C90_directory`); sources other than `.c`, `.cc`, `.cpp` and `.cxx` that are compiled have no entry (`C90_not_listed`).
- C92: When the registry names the directory of Visual Studio 2019 or 2022 under `SxS`, the search for versions ends with `KeyError` even if the full edition is found too (`C92_sxs`); the environment's override wins over the version the caller asks for (`C92_override_wins`); 2012 is preferred least (`C92_2012_last`).
- C93: With more than one architecture in `ARCHS` everything is compiled for `i386`, which is none of them (`C93_fat`, `C93_fat_witness`); a text where a list of flags is expected is taken apart into one flag for each character (`C93_text_witness`).
- C94: A linker flag and its file written as two entries (`-exported_symbols_list`, `a.txt`): the file is looked for from the directory of the build, not from that of the build file (`C94_two_entries_witness`).
- C94: In `-Wl,-exported_symbols_list,a.txt,-dead_strip` all that follows the flag is taken as the name of the file (`C94_file_end_witness`).
- C94: `@rpath//lib` as the base of install names becomes `/lib` (`C94_standard_witness`).
- C95: A file of certificates in which no certificate is found gives `ca: null`, and then the certificates built into Node are trusted (`C95_null`, `C95_null_witness`).
- C96: A value of the registry without data is given the next line that is not empty as its data (`C96_empty_witness`); characters of the name other than letters, digits and `_` fit any character (`C96_like_witness`).
- C97: A generator in a file of its own whose name has a `-` is cut there (`C97_custom_witness`); a configuration named by a number in the command line stops gyp (`C97_number`); `-DMSVS_VERSION` and `-DMSVS_OS_BITS` are replaced (`C97_msvs`).
- C98: A rule of a Visual Studio project whose extension has a capital letter is never used (`C98_capital`).
- C98: With a generator output directory, the file of a rule that is an input of an action stays excluded (`C98_trigger_witness`), and outputs outside `$(IntDir)` get the path to the project three times (`C98_output_witness`).
- C98: Rules named `a-b` and `a_b` get the same name in a Visual Studio project (`C98_name_witness`).
- C99: In ninja files the objects of targets `a` and `a.b`, of targets of one name in two directories, and of two toolsets for sources above the top directory can be one file (`C99_object_witness`); executables of one name for two toolsets always are (`C99_toolset_witness`).
- C99: Actions `a-b` and `a_b` of a target become one ninja rule (`C99_rule_witness`).
- C99: With a `product_prefix`, makefiles drop `lib` from the name of a library and ninja files do not (`C99_make_witness`).
- C100: A target of type `none` with sources gets statements that compile them, but nothing waits for these (`C100_none_witness`).
- C100: A target named `all` gives a second statement for `all` (`C100_all_witness`).
- C102: After a rule with two inputs and three sources the rules that follow do not wait for needed targets (`C102_witness`).
- C103: Versions of SDKs are compared as text, so `10.0.9600.0` is taken before `10.0.22621.0` (`C103_text_order_witness`).
- C103: A target with `msvs_target_platform_version` has a project that names two versions, and the second, found on the machine, counts (`C103_twice_witness`).
- C105: a text that begins with // and needs no quotation marks (a network share) is printed bare, and a reader of project files takes it for a comment (`C105_slashes_witness`).
- C105: a newline after a text that needs no quotation marks is printed bare and lost, because the pattern's end also matches before a final newline (`C105_newline_witness`).
- C105: a carriage return is printed as a newline in all classes, although the comment in the code says it passes as it is in two of them (`C105_return_witness`).
- C106: In makefiles for iOS a program is signed before its own postbuilds run, in ninja files after them (`C106_make_signs_first`, `C106_ninja_signs_last`).
- C106: A `#` in an argument of a postbuild starts a comment in the makefile, and two blanks in a row become one (`C106_make_hash`, `C106_make_blanks`).
- C107: In CMake files a list of two or more values is written with `list(APPEND ...)`, so it is added to what the variable holds, while one of at most one value replaces it (`C107_list_adds`).
- C107: In CMake files an empty value of a list is lost, and one that ends in a backslash or opens a bracket is joined to the next (`C107_list_not`).
- C107: In CMake files a word of an action's command that is spelled like an option of add_custom_command ends the command; a message of several words becomes several arguments of COMMENT (`C107_option_word`).
- C108: The flags of a language are set as a property of each file, so a file two targets share is compiled for both with the flags of the later one (`C108_shared_file`).
- C110: A target with object files among its sources marks its other files (headers) as external objects instead, and makes the generator fail if it has none (`C110_marked`, `C110_written`, `C110_fails`).
- C111: Targets of files that differ in a replaced character, or a target `a_host` beside `a` for the host, get the same CMake name (`C111_collisions`).
- C112: A directory that is added to an Xcode project twice by a path with a slash at its end ends generation with an error: the slash is dropped from the reference, so it is not found, and then it is in the way (`C112_directory_twice`).
- C112: An absolute path that is added to an Xcode project gives a reference to a file below the project, and another one each time (`C112_absolute`).
- C112: A variable that is a part of a path but not the first one makes the reference start at the variable; what is before it is lost (`C112_variable_inside`).
- C113: On iOS a resource with the name of the product takes the place of the program; a resource Info.plist takes the place of the one of a framework; neither is refused (`C113_taken`).
- C114: In a project whose only top directory is called Source, the root group Source loses its name when the two are merged; the ids of all files change when a file is added beside that directory (`C114_same_name`).
- C115: The CMake generator writes the sources and destinations of copies without quotes: a name with a blank becomes two words, and `cmake -E copy` copies other files to another place (`C115_blank`).
- C116: In CMake files a rule with a source in the directory of the gyp file and an output `<(RULE_INPUT_DIRNAME)/...` has `cmake -E make_directory` with no directory at all (`C116_no_directory`).
- C116: An output `<(RULE_INPUT_DIRNAME)/../x.c` is cleaned up to `x.c` before the directory is known, so that CMake waits for a file that the action does not make (`C116_above`).
- C117: `~=v2.2` takes no version at all, although `v2.2` and `2.2` are the same version (`C117_compatible_v`).
- C117: `~=2.2.rev1` and `~=2.2.POST1` take only the series 2.2, where `~=2.2.post1`, the same version, takes the series 2 (`C117_compatible_words`).
- C117: `>1.0a1` takes 1.0 but neither 1.0.post1 nor 1.0+1 (`C117_greater_gap`).
- C117: A specifier falls back to pre-releases when nothing else matches, a set of that one specifier does not (`C117_no_fallback`).
- C117: Any text may follow `===`, but asking whether a version is contained fails for a text that is no version, unless pre-releases are decided by the caller (`C117_arbitrary_text`).
- C118: In the main group a file named like one of the fixed groups and a group with another name each compare as after the other, since both questions ask the class of the first object (`C118_files_in_main_group`).
- C119: Header maps are never complete: the texts after the table are passed to struct.pack as str, which Python 3 refuses, and for no headers the longest path is asked of nothing (`C119_never_finished`).
- C120: Variables in entitlements are replaced one after the other, so a bundle identifier that refers to the prefix is expanded again (`C120_twice`).
- C121: Brackets right inside brackets are dropped when a marker is written, so `A and ((B or C))` becomes `A and B or C`, which holds elsewhere; markers are compared by this text, so the two count as equal (`C121_double`).
- C122: A target of the project named like the shim or the copy of a marked target is replaced without a word and listed twice (`C122_clash`). The shim is listed before the copy it depends on (`C122_list`).
- C123: is_normalized_name takes `a--b`, whose canonical form is `a-b`: the pattern only refuses three dashes (`C123_double_dash`). It and validation overlook a newline at the end (`C123_newline`).
- C124: a wheel without a name of a project (`-1.0-py3-none-any.whl`) or with empty tags (`foo-1.0---.whl`) is accepted (`C124_empty_parts`).
- C125: a glibc before 2 gets manylinux tags for all its minor versions, although nothing before 2.5 is supported (`C125_before_two`).
- C126: with macOS 11 every processor other than x86_64 gets universal2 for 10.4 to 10.16, also one for which universal2 has no code (`C126_powerpc`).
- C128: all configurations of a target in the Xcode wrapper share one dictionary of settings, so that the test host of Debug appears in Release (`C128_leak`); two programs of one name get one name in the wrapper (`C128_same_name`).
- C129: In the Visual Studio user file an empty argument of `run_as` is lost, and an argument with a blank that ends in a backslash is joined with the next one (`C129_empty_argument`, `C129_backslash`).
- C129: A program of `run_as` whose name has a blank is searched in PATH with its quotes, so it is never found (`C129_quoted_command`).
- C130: `gyp-flock-tool` (AIX, Solaris, OS/400) drops the exit status of the command: a failed link counts as successful (`C130_status_lost`).
- C130: `gyp-flock-tool` does not wait for a lock that is taken, it fails without running the command (`C130_refused`).

Seen while reading and modelling, not stated as theorems:

- `DeepDependencies` does not terminate on a cyclic table (C62 is about accepted tables).
- `SetUpConfigurations` raises `IndexError` if every configuration is abstract.
- `MergeDicts` depends on the order of keys when a section has both `name` and `name=`.
- A build file that includes itself through a list of dictionaries loops; through a dictionary it recurses without end.
- `includes+` and similar keys in a nested dictionary of an included file are resolved from the wrong directory.
- A text under `includes` is read as a list of one-letter file names.
- `remove` returns a text that the command line prints letter by letter.
- `parseConfigGypi` removes everything after a hash, also inside texts.
- `install --ensure` accepts any marker with at least the current number.

## Trusted base

- Lean's kernel (Lean 4.33.0), and at most the axioms `propext`, `Classical.choice`, `Quot.sound`. No axioms are added; there is no `sorry`, `admit`, `native_decide` or `bv_decide`. The axioms of each of the 898 property theorems are listed above (from `#print axioms`).
- The translation by hand of the cited lines into the definitions of `Model/`, including the behaviour of the library functions of Python and JavaScript that they use (string methods, `os.path`, dictionaries, `argparse`, sorting, `JSON.stringify`).
- The specifications in `Spec/` of outside tools and formats, which are written from their documentation.
- The wording of the theorems.

## What is modelled and what is not

For each source file: functions with lines cited by a definition of the model, and functions without a model. A cited function is modelled apart from logging, debug output and what the definition's comment names; the citation says which lines.

- `bin/node-gyp.js` (`Cli`): modelled: run; not modelled: errorMessage, issueMessage.
- `gyp/gyp_main.py`: not modelled: the whole file.
- `gyp/pylib/gyp/MSVSNew.py` (`MsvsSolution`): modelled: MSVSFolder.__init__, MSVSSolution.__init__, MSVSSolution.Write; not modelled: cmp, MakeGuid, MSVSSolutionEntry.__cmp__, MSVSFolder.get_guid, MSVSProject.__init__, MSVSProject.set_dependencies, MSVSProject.get_guid, MSVSProject.set_msbuild_toolset.
- `gyp/pylib/gyp/MSVSProject.py`: not modelled: the whole file.
- `gyp/pylib/gyp/MSVSSettings.py` (`MsvsEscape`, `MsvsSettings`, `MsvsTable`): modelled: _Tool.__init__, _AddTool, _GetMSBuildToolSettings, _Type.ValidateMSVS, _Type.ValidateMSBuild, _Type.ConvertToMSBuild, _String.ValidateMSVS, _String.ValidateMSBuild, _String.ConvertToMSBuild, _StringList.ValidateMSVS, _StringList.ValidateMSBuild, _StringList.ConvertToMSBuild, _Boolean._Validate, _Boolean.ValidateMSVS, _Boolean.ValidateMSBuild, _Boolean.ConvertToMSBuild, _Integer.__init__, _Integer.ValidateMSVS, _Integer.ValidateMSBuild, _Integer.ConvertToMSBuild, _Enumeration.__init__, _Enumeration.ValidateMSVS, _Enumeration.ValidateMSBuild, _Enumeration.ConvertToMSBuild, _Same, _Renamed, _Moved, _MovedAndRenamed, _MSVSOnly, _MSBuildOnly, _ConvertedToAdditionalOption, _CustomGeneratePreprocessedFile, _ValidateExclusionSetting, FixVCMacroSlashes, ConvertVCMacrosToMSBuild, ConvertToMSBuildSettings, ValidateMSVSSettings, ValidateMSBuildSettings, _ValidateSettings.
- `gyp/pylib/gyp/MSVSToolFile.py`: not modelled: the whole file.
- `gyp/pylib/gyp/MSVSUserFile.py` (`MsvsUser`): modelled: _FindCommandInPath, _QuoteWin32CommandLineArgs, Writer.AddDebugSettings; not modelled: Writer.__init__, Writer.AddConfig, Writer.WriteIfChanged.
- `gyp/pylib/gyp/MSVSUtil.py` (`LargePdb`, `Shard`): modelled: _GetLargePdbShimCcPath, _SuffixName, _ShardName, ShardTargets, _GetPdbPath, InsertLargePdbShims; not modelled: _DeepCopySomeKeys.
- `gyp/pylib/gyp/MSVSVersion.py` (`MsvsGlobals`, `VsVersion`): modelled: VisualStudioVersion.__init__, VisualStudioVersion._SetupScriptInternal, VisualStudioVersion.SetupScript, _CreateVersion, _DetectVisualStudioVersions, SelectVisualStudioVersion; not modelled: JoinPath, VisualStudioVersion.ShortName, VisualStudioVersion.Description, VisualStudioVersion.SolutionVersion, VisualStudioVersion.ProjectVersion, VisualStudioVersion.FlatSolution, VisualStudioVersion.UsesVcxproj, VisualStudioVersion.ProjectExtension, VisualStudioVersion.Path, VisualStudioVersion.ToolPath, VisualStudioVersion.DefaultToolset, _RegistryQueryBase, _RegistryQuery, _RegistryGetValueUsingWinReg, _RegistryGetValue, _ConvertToCygpath.
- `gyp/pylib/gyp/__init__.py` (`Flavor`, `Options`, `Quoting`): modelled: EscapeForCString, FindBuildFiles, Load, NameValueListToDict, ShlexEnv, FormatOpt, RegenerateAppendFlag, RegenerateFlags, RegeneratableOptionParser.add_argument, RegeneratableOptionParser.parse_args, gyp_main; not modelled: DebugOutput, RegeneratableOptionParser.__init__, main, script_main.
- `gyp/pylib/gyp/common.py` (`Flavor`, `Load`, `MakeTools`, `OrderedSet`, `Path`, `ShellQuote`, `Targets`, `Toposort`, `WriteOnDiff`): modelled: memoize.__init__, memoize.__call__, FindQualifiedTargets, ParseQualifiedTarget, ResolveTarget, BuildFile, GetEnvironFallback, QualifiedTarget, RelativePath, InvertRelativePath, FixIfRelativePath, UnrelativePath, EncodePOSIXShellArgument, EncodePOSIXShellList, DeepDependencyTargets, BuildFileTargets, AllTargets, WriteOnDiff, GetCrossCompilerPredefines, GetFlavorByPlatform, GetFlavor, CopyTool, uniquer, OrderedSet.__init__, OrderedSet.__len__, OrderedSet.__contains__, OrderedSet.add, OrderedSet.discard, OrderedSet.__iter__, OrderedSet.__reversed__, OrderedSet.pop, OrderedSet.__repr__, OrderedSet.__eq__, OrderedSet.update, TopologicallySorted; not modelled: ExceptionAppend, EnsureDirExists, CycleError.__init__, CycleError.__str__, CrossCompileRequested, IsCygwin.
- `gyp/pylib/gyp/easy_xml.py` (`EasyXml`): modelled: XmlToString, _ConstructContentList, _XmlEscape; not modelled: WriteXmlIfChanged.
- `gyp/pylib/gyp/flock_tool.py` (`LockTool`): modelled: main, FlockTool.Dispatch, FlockTool.ExecFlock; not modelled: FlockTool._CommandifyName.
- `gyp/pylib/gyp/generator/analyzer.py` (`Analyzer`): modelled: _ToGypPath, _ResolveParent, _AddSources, _ToLocalPath, _ExtractSources, Target.__init__, _WasBuildFileModified, _GetOrCreateTargetByName, _DoesTargetTypeRequireBuild, _GenerateTargets, _GetUnqualifiedToTargetMapping, _DoesTargetDependOnMatchingTargets, _GetTargetsDependingOnMatchingTargets, _AddCompileTargets, _GetCompileTargets, _WriteOutput, _WasGypIncludeFileModified, _LookupTargets, TargetCalculator._supplied_target_names, TargetCalculator._supplied_target_names_no_all, TargetCalculator.find_matching_test_target_names, TargetCalculator.find_matching_compile_target_names, GenerateOutput; not modelled: _ExtractSourcesFromAction, Config.__init__, Config.Init, _NamesNotIn, CalculateVariables, TargetCalculator.__init__, TargetCalculator.is_build_impacted.
- `gyp/pylib/gyp/generator/android.py`: not modelled: the whole file.
- `gyp/pylib/gyp/generator/cmake.py` (`CMake`, `CMakeCopies`, `CMakeRules`, `CMakeTarget`): modelled: RemovePrefix, Linkable, NormjoinPathForceCMakeSource, NormjoinPath, CMakeStringEscape, SetFileProperty, SetFilesProperty, SetTargetProperty, SetVariable, SetVariableList, UnsetVariable, WriteVariable, StringToCMakeTargetName, WriteActions, NormjoinRulePathForceCMakeSource, WriteRules, WriteCopies, CreateCMakeTargetBaseName, CreateCMakeTargetFullName, CMakeNamer.__init__, CMakeNamer.CreateCMakeTargetName, WriteTarget; not modelled: CalculateVariables, Compilable, CMakeTargetType.__init__, GenerateOutputForConfig, PerformBuild, CallGenerateOutputForConfig, GenerateOutput.
- `gyp/pylib/gyp/generator/compile_commands_json.py` (`CompileCommands`): modelled: AddCommandsForTarget, GenerateOutput; not modelled: IsMac, CalculateVariables, PerformBuild.
- `gyp/pylib/gyp/generator/dump_dependency_json.py` (`CompileCommands`): modelled: GenerateOutput; not modelled: CalculateVariables, CalculateGeneratorInputInfo.
- `gyp/pylib/gyp/generator/eclipse.py`: not modelled: the whole file.
- `gyp/pylib/gyp/generator/gypd.py`: not modelled: the whole file.
- `gyp/pylib/gyp/generator/gypsh.py`: not modelled: the whole file.
- `gyp/pylib/gyp/generator/make.py` (`Flavor`, `MakeBuild`, `MakeCommands`, `MakeGen`, `MakeHeader`, `MakeRoot`, `MakeRule`, `MakeTools`, `Postbuilds`, `ShellQuote`): modelled: CalculateVariables, WriteRootHeaderSuffixRules, Compilable, Linkable, Target, EscapeShellArgument, EscapeMakeVariableExpansion, EscapeCppDefine, QuoteIfNecessary, replace_sep, StringToMakefileVariable, Sourceify, QuoteSpaces, SourceifyAndQuoteSpaces, MakefileWriter.__init__, MakefileWriter.Write, MakefileWriter.WriteSubMake, MakefileWriter.WriteActions, MakefileWriter.WriteRules, MakefileWriter.WriteCopies, MakefileWriter.WriteSources, MakefileWriter.ComputeOutputBasename, MakefileWriter.ComputeOutput, MakefileWriter.ComputeDeps, MakefileWriter.GetSharedObjectFromSidedeck, MakefileWriter.GetUnversionedSidedeckFromSidedeck, MakefileWriter.WriteTarget, MakefileWriter.WriteList, MakefileWriter.WriteDoCmd, MakefileWriter.WriteMakeRule, MakefileWriter.WriteLn, MakefileWriter.Objectify, MakefileWriter.Absolutify, MakefileWriter.ExpandInputRoot, MakefileWriter._InstallableTargetInstallPath, WriteAutoRegenerationRule, GenerateOutput; not modelled: CalculateGeneratorInputInfo, MakefileWriter.WriteMacBundleResources, MakefileWriter.WriteMacInfoPlist, MakefileWriter.WritePchTargets, MakefileWriter._InstallImmediately, MakefileWriter.ComputeMacBundleOutput, MakefileWriter.ComputeMacBundleBinaryOutput, MakefileWriter.WriteDependencyOnExtraOutputs, MakefileWriter.WriteAndroidNdkModuleRule, MakefileWriter.GetSortedXcodeEnv, MakefileWriter.GetSortedXcodePostbuildEnv, MakefileWriter.WriteSortedXcodeEnv, MakefileWriter.Pchify, PerformBuild.
- `gyp/pylib/gyp/generator/msvs.py` (`Flavor`, `MsvsActions`, `MsvsEscape`, `MsvsFinal`, `MsvsGlobals`, `MsvsProps`, `MsvsRules`, `MsvsSolution`, `MsvsSources`, `MsvsUser`): modelled: _NormalizedSource, _FixPath, _IsWindowsAbsPath, _FixPaths, _ConvertSourcesToFilterHierarchy, _ToolAppend, _ToolSetOrAppend, _ConfigPlatform, _ConfigBaseName, _ConfigFullName, _ConfigWindowsTargetPlatformVersion, _BuildCommandLineForRuleRaw, _BuildCommandLineForRule, _AddActionStep, _RuleExpandPath, _FindRuleTriggerFiles, _RuleInputsAndOutputs, _GenerateNativeRulesForMSVS, _Cygwinify, _GenerateExternalRules, _EscapeEnvironmentVariableExpansion, _EscapeCommandLineArgumentForMSVS, _EscapeVCProjCommandLineArgListItem, _EscapeCppDefineForMSVS, _EscapeCommandLineArgumentForMSBuild, _EscapeMSBuildSpecialCharacters, _EscapeCppDefineForMSBuild, _AdjustSourcesForRules, _FilterActionsFromExcluded, _GetGuidOfProject, _GetMsbuildToolsetOfProject, _GetUniquePlatforms, _GetMSVSConfigurationType, _GetIncludeDirs, _GetLibraryDirs, _GetLibraries, _GetOutputFilePathAndTool, _GetOutputTargetExt, _GetDefines, _GetDisabledWarnings, _GetModuleDefinition, _GetMSVSAttributes, _PrepareListOfSources, _AdjustSourcesAndConvertToFilterHierarchy, _IdlFilesHandledNonNatively, _GetPrecompileRelatedFiles, _GetExcludedFilesFromBuild, _AddToolFilesToMSVS, _AddActions, _WriteMSVSUserFile, _AddCopies, _GetCopies, _GetPathDict, _DictsToFolders, _CollapseSingles, _GatherSolutionFolders, _GetPathOfProject, _GetPlatformOverridesOfProject, _CreateProjectObjects, CalculateVariables, GenerateOutput, _GenerateMSBuildFiltersFile, _AppendFiltersForMSBuild, _MapFileToMsBuildSourceType, _GenerateRulesForMSBuild, MSBuildRule.__init__, _GenerateMSBuildRulePropsFile, _GetConfigurationAndPlatform, _GetConfigurationCondition, _GetMSBuildProjectConfigurations, _GetMSBuildGlobalProperties, _GetMSBuildConfigurationDetails, _GetMSBuildLocalProperties, _GetMSBuildPropertySheets, _ConvertMSVSBuildAttributes, _ConvertMSVSCharacterSet, _ConvertMSVSConfigurationType, _GetMSBuildAttributes, _GetMSBuildConfigurationGlobalProperties, _AddConditionalProperty, _GetMSBuildPropertyGroup, _GetMSBuildToolSettingsSections, _FinalizeMSBuildSettings, _GetValueFormattedForMSBuild, _GetMSBuildSources, _AddSources2, _GetMSBuildProjectReferences, _GenerateMSBuildProject, _GetMSBuildExternalBuilderTargets, _GenerateActionsForMSBuild, _AddMSBuildAction; not modelled: 23 functions.
- `gyp/pylib/gyp/generator/ninja.py` (`NinjaGraph`, `NinjaPaths`, `Postbuilds`, `ShellQuote`): modelled: StripPrefix, QuoteShellArgument, Target.__init__, Target.Linkable, Target.UsesToc, Target.PreActionInput, Target.PreCompileInput, Target.FinalOutput, NinjaWriter.__init__, NinjaWriter.ExpandSpecial, NinjaWriter.ExpandRuleVariables, NinjaWriter.GypPathToNinja, NinjaWriter.GypPathToUniqueOutput, NinjaWriter.WriteCollapsedDependencies, NinjaWriter.WriteSpec, NinjaWriter.WriteActionsRulesCopies, NinjaWriter.WriteActions, NinjaWriter.WriteRules, NinjaWriter.WriteCopies, NinjaWriter.WriteSourcesForArch, NinjaWriter.WriteLinkForArch, NinjaWriter.WriteTarget, NinjaWriter.GetPostbuildCommand, NinjaWriter.ComputeOutputFileName, NinjaWriter.ComputeOutput, NinjaWriter.WriteNewNinjaRule, CalculateVariables, GenerateOutputForConfig; not modelled: 33 functions.
- `gyp/pylib/gyp/generator/xcode.py`: not modelled: the whole file.
- `gyp/pylib/gyp/input.py` (`Analyzer`, `CheckedEval`, `Configurations`, `DepLists`, `DependencyGraph`, `Expand`, `Includes`, `ListFilters`, `Load`, `LoadAll`, `Merge`, `Parallel`, `Scan`, `Settings`, `TargetFile`, `Toposort`, `Validate`): modelled: IsPathSection, GetIncludedBuildFiles, CheckedEval, CheckNode, LoadOneBuildFile, LoadBuildFileIncludesIntoDict, LoadBuildFileIncludesIntoList, ProcessToolsetsInDict, LoadTargetBuildFile, CallLoadTargetBuildFile, ParallelState.__init__, ParallelState.LoadTargetBuildFileCallback, LoadTargetBuildFilesParallel, FindEnclosingBracketGroup, IsStrCanonicalInt, ExpandVariables, EvalCondition, EvalSingleCondition, ProcessConditionsInDict, LoadAutomaticVariablesFromDict, LoadVariablesFromVariablesDict, ProcessVariablesAndConditionsInDict, ProcessVariablesAndConditionsInList, BuildTargetsDict, QualifyDependencies, ExpandWildcardDependencies, Unify, RemoveDuplicateDependencies, Filter, RemoveSelfDependencies, RemoveLinkDependenciesFromNoneTargets, DependencyGraphNode.__init__, DependencyGraphNode.__repr__, DependencyGraphNode.FlattenToList, DependencyGraphNode.FindCycles, DependencyGraphNode.DirectDependencies, DependencyGraphNode._AddImportedDependencies, DependencyGraphNode.DirectAndImportedDependencies, DependencyGraphNode.DeepDependencies, DependencyGraphNode._LinkDependenciesInternal, DependencyGraphNode.DependenciesForLinkSettings, DependencyGraphNode.DependenciesToLinkAgainst, BuildDependencyList, VerifyNoGYPFileCircularDependencies, DoDependentSettings, AdjustStaticLibraryDependencies, MakePathRelative, MergeLists, MergeDicts, MergeConfigWithInheritance, SetUpConfigurations, ProcessListFiltersInDict, ProcessListFiltersInList, ValidateTargetType, ValidateRulesInTarget, ValidateRunAsInTarget, ValidateActionsInTarget, TurnIntIntoStrInDict, TurnIntIntoStrInList, PruneUnwantedTargets, VerifyNoCollidingTargets, SetGeneratorGlobals, Load; not modelled: FixupPlatformCommand.
- `gyp/pylib/gyp/mac_tool.py` (`HeaderMap`, `LockTool`, `MacSign`): modelled: main, MacTool.Dispatch, MacTool.ExecFlock, MacTool.ExecMergeInfoPlist, MacTool._FindProvisioningProfile, MacTool._MergePlist, MacTool._GetSubstitutions, MacTool._InstallEntitlements, MacTool._ExpandVariables, NextGreaterPowerOf2, WriteHmap; not modelled: 20 functions.
- `gyp/pylib/gyp/msvs_emulation.py` (`Quoting`): modelled: QuoteForRspFile, EncodeRspFileList, _FormatAsEnvironmentBlock; not modelled: 65 functions.
- `gyp/pylib/gyp/ninja_syntax.py` (`NinjaSyntax`): modelled: escape_path, Writer.variable, Writer.build, Writer._count_dollars_before_index, Writer._line, escape; not modelled: Writer.__init__, Writer.newline, Writer.comment, Writer.pool, Writer.rule, Writer.include, Writer.subninja, Writer.default, Writer._as_list.
- `gyp/pylib/gyp/simple_copy.py` (`SimpleCopy`): modelled: deepcopy, _deepcopy_atomic, _deepcopy_list, _deepcopy_dict.
- `gyp/pylib/gyp/win_tool.py` (`Quoting`): modelled: WinTool._GetEnv; not modelled: main, WinTool._UseSeparateMspdbsrv, WinTool.Dispatch, WinTool._CommandifyName, WinTool.ExecStamp, WinTool.ExecRecursiveMirror, WinTool.ExecLinkWrapper, WinTool.ExecLinkWithManifests, WinTool.ExecManifestWrapper, WinTool.ExecManifestToRc, WinTool.ExecMidlWrapper, WinTool.ExecAsmWrapper, WinTool.ExecRcWrapper, WinTool.ExecActionWrapper, WinTool.ExecClCompile.
- `gyp/pylib/gyp/xcode_emulation.py` (`MacBundle`, `Postbuilds`, `XcodeEnv`, `XcodeFlags`, `XcodeLink`): modelled: XcodeArchsVariableMapping, XcodeArchsDefault._VariableMapping, XcodeArchsDefault._ExpandArchs, XcodeArchsDefault.ActiveArchs, GetXcodeArchsDefault, XcodeSettings.__init__, XcodeSettings._ConvertConditionalKeys, XcodeSettings._Test, XcodeSettings._Appendf, XcodeSettings.IsIosFramework, XcodeSettings._IsBundle, XcodeSettings.GetFrameworkVersion, XcodeSettings.GetWrapperExtension, XcodeSettings.GetProductName, XcodeSettings.GetWrapperName, XcodeSettings.GetBundleContentsFolderPath, XcodeSettings.GetBundleResourceFolder, XcodeSettings.GetBundleExecutableFolderPath, XcodeSettings.GetBundleJavaFolderPath, XcodeSettings.GetBundleFrameworksFolderPath, XcodeSettings.GetBundleSharedFrameworksFolderPath, XcodeSettings.GetBundleSharedSupportFolderPath, XcodeSettings.GetBundlePlugInsFolderPath, XcodeSettings.GetBundleXPCServicesFolderPath, XcodeSettings.GetBundlePlistPath, XcodeSettings._GetBundleBinaryPath, XcodeSettings._GetStandaloneExecutableSuffix, XcodeSettings._GetStandaloneExecutablePrefix, XcodeSettings._GetStandaloneBinaryPath, XcodeSettings.GetExecutableName, XcodeSettings.GetExecutablePath, XcodeSettings.GetActiveArchs, XcodeSettings._SdkRoot, XcodeSettings._SdkPath, XcodeSettings._XcodeSdkPath, XcodeSettings._AppendPlatformVersionMinFlags, XcodeSettings.GetCflags, XcodeSettings.GetCflagsC, XcodeSettings.GetCflagsCC, XcodeSettings._AddObjectiveCGarbageCollectionFlags, XcodeSettings._AddObjectiveCARCFlags, XcodeSettings._AddObjectiveCMissingPropertySynthesisFlags, XcodeSettings.GetCflagsObjC, XcodeSettings.GetCflagsObjCC, XcodeSettings.GetInstallNameBase, XcodeSettings._StandardizePath, XcodeSettings.GetInstallName, XcodeSettings._MapLinkerFlagFilename, XcodeSettings.GetLdflags, XcodeSettings.GetPerTargetSetting, XcodeSettings._GetStripPostbuilds, XcodeSettings._GetDebugInfoPostbuilds, XcodeSettings._GetTargetPostbuilds, XcodeSettings._GetIOSPostbuilds, XcodeSettings._GetIOSCodeSignIdentityKey, XcodeSettings.AddImplicitPostbuilds, XcodeSettings._AdjustLibrary, XcodeSettings.AdjustLibraries, GetMacBundleResources, _GetXcodeEnv, _NormalizeEnvVarReferences, ExpandEnvVars, _TopologicallySortedEnvVarKeys, GetSortedXcodeEnv, GetSpecPostbuildCommands; not modelled: 37 functions.
- `gyp/pylib/gyp/xcode_ninja.py` (`XcodeNinja`): modelled: _TargetFromSpec, IsValidTargetForWrapper, CreateWrapper; not modelled: _WriteWorkspace.
- `gyp/pylib/gyp/xcodeproj_file.py` (`Pbx`, `XcodeGroups`, `XcodeIds`, `XcodeSort`): modelled: cmp, SourceTreeAndPathFromPath, XCObject.ComputeIDs, XCObject.EnsureNoIDCollisions, XCObject.Descendants, XCObject._EncodeComment, XCObject._EncodeTransform, XCObject._EncodeString, XCObject._XCPrintableValue, XCObject._XCKVPrint, XCObject.Print, XCHierarchicalElement.__init__, XCHierarchicalElement.Name, XCHierarchicalElement.Hashables, XCHierarchicalElement.Compare, XCHierarchicalElement.CompareRootGroup, XCHierarchicalElement.PathFromSourceTreeAndPath, PBXGroup.__init__, PBXGroup.Hashables, PBXGroup.HashablesForChild, PBXGroup._AddChildToDicts, PBXGroup.AppendChild, PBXGroup.GetChildByPath, PBXGroup.AddOrGetFileByPath, PBXGroup.AddOrGetVariantGroupByNameAndPath, PBXGroup.TakeOverOnlyChild, PBXGroup.SortGroup, PBXFileReference.__init__, PBXProject.SortGroups, XCProjectFile.Print, XCProjectFile._PrintObjects; not modelled: 104 functions.
- `gyp/pylib/gyp/xml_fix.py`: not modelled: the whole file.
- `gyp/pylib/packaging/_elffile.py` (`ElfFile`): modelled: ELFFile.__init__, ELFFile._read, ELFFile.interpreter.
- `gyp/pylib/packaging/_manylinux.py` (`LibcVersion`, `SysTags`): modelled: _is_linux_armhf, _is_linux_i686, _have_compatible_abi, _parse_glibc_version, _get_glibc_version, _is_compatible, platform_tags; not modelled: _parse_elf, _glibc_version_string_confstr, _glibc_version_string_ctypes, _glibc_version_string.
- `gyp/pylib/packaging/_musllinux.py` (`LibcVersion`, `SysTags`): modelled: _parse_musl_version, platform_tags; not modelled: _get_musl_version.
- `gyp/pylib/packaging/_parser.py` (`Markers`): modelled: parse_marker, _parse_full_marker, _parse_marker, _parse_marker_atom, _parse_marker_item; not modelled: 19 functions.
- `gyp/pylib/packaging/_structures.py` (`Version`): modelled: InfinityType.__repr__, InfinityType.__hash__, InfinityType.__lt__, InfinityType.__le__, InfinityType.__eq__, InfinityType.__gt__, InfinityType.__ge__, InfinityType.__neg__, NegativeInfinityType.__repr__, NegativeInfinityType.__hash__, NegativeInfinityType.__lt__, NegativeInfinityType.__le__, NegativeInfinityType.__eq__, NegativeInfinityType.__gt__, NegativeInfinityType.__ge__, NegativeInfinityType.__neg__.
- `gyp/pylib/packaging/_tokenizer.py`: not modelled: the whole file.
- `gyp/pylib/packaging/markers.py` (`Markers`): modelled: _format_marker, _evaluate_markers, Marker.__init__, Marker.__str__; not modelled: _normalize_extra_values, _eval_op, _normalize, format_full_version, default_environment, Marker.__repr__, Marker.__hash__, Marker.__eq__, Marker.evaluate.
- `gyp/pylib/packaging/metadata.py`: not modelled: the whole file.
- `gyp/pylib/packaging/requirements.py`: not modelled: the whole file.
- `gyp/pylib/packaging/specifiers.py` (`Specifiers`): modelled: Specifier.__init__, Specifier.prereleases, Specifier._get_operator, Specifier._compare_compatible, Specifier._compare_equal, Specifier._compare_not_equal, Specifier._compare_less_than_equal, Specifier._compare_greater_than_equal, Specifier._compare_less_than, Specifier._compare_greater_than, Specifier._compare_arbitrary, Specifier.contains, Specifier.filter, _version_split, _version_join, _is_not_suffix, _pad_version, SpecifierSet.__init__, SpecifierSet.prereleases, SpecifierSet.contains, SpecifierSet.filter; not modelled: 26 functions.
- `gyp/pylib/packaging/tags.py` (`MacTags`, `SysTags`, `WheelNames`): modelled: Tag.__init__, parse_tag, _abi3_applies, cpython_tags, _py_interpreter_range, compatible_tags, _mac_binary_formats, mac_platforms, _version_nodot; not modelled: 19 functions.
- `gyp/pylib/packaging/utils.py` (`Canonical`, `Specifiers`, `WheelNames`): modelled: canonicalize_name, is_normalized_name, canonicalize_version, parse_wheel_filename, parse_sdist_filename.
- `gyp/pylib/packaging/version.py` (`Specifiers`, `Version`): modelled: _BaseVersion.__lt__, _BaseVersion.__le__, _BaseVersion.__eq__, _BaseVersion.__ge__, _BaseVersion.__gt__, _BaseVersion.__ne__, Version.__init__, Version.__str__, Version.local, Version.public, Version.base_version, Version.is_prerelease, _parse_letter_version, _parse_local_version, _cmpkey; not modelled: parse, _BaseVersion.__hash__, Version.__repr__, Version.epoch, Version.release, Version.pre, Version.post, Version.dev, Version.is_postrelease, Version.is_devrelease, Version.major, Version.minor, Version.micro.
- `lib/build.js` (`Build`, `ConfigGypi`): modelled: build, loadConfigGypi, findSolutionFile, doWhich, doBuild.
- `lib/clean.js` (`Remove`): modelled: clean.
- `lib/configure.js` (`Cli`, `ConfigGypi`, `Configure`): modelled: configure, getNodeDir, createBuildDir, createConfigFile, findConfigs, runGyp.
- `lib/create-config-gypi.js` (`BaseConfig`, `ConfigGypi`): modelled: parseConfigGypi, getBaseConfigGypi, getCurrentConfigGypi, createConfigGypi, boolsToString.
- `lib/download.js` (`CaFile`): modelled: download, readCAFile.
- `lib/find-node-directory.js` (`NodeRoot`): modelled: findNodeDirectory.
- `lib/find-python.js` (`FindPython`): modelled: findPython, toCheck, checkCommand, checkPyLauncher, checkExecPath, run; not modelled: getOsUserInfo, constructor, addLog, succeed, fail.
- `lib/find-visualstudio.js` (`FindVS`): modelled: findVisualStudio, findVisualStudio2019OrNewerFromSpecifiedLocation, findVisualStudio2017FromSpecifiedLocation, findVSFromSpecifiedLocation, findVisualStudio2019OrNewerUsingSetupModule, findVisualStudio2017UsingSetupModule, findNewVSUsingSetupModule, findVisualStudio2019OrNewer, findVisualStudio2017, findNewVS, processData, getVersionInfo, getMSBuild, getToolset, getSDK, findVisualStudio2015, findVisualStudio2013, findOldVS, checkConfigVersion; not modelled: constructor, addLog, succeed, fail, parseData, failPowershell, msBuildPathExists, execFile.
- `lib/install.js` (`Cli`, `Install`, `Shasums`): modelled: install, copyDirectory, go, isValid, onwarn, downloadShasums, downloadNodeLib, valid, rollback, eaccesFallback; not modelled: constructor, _transform, _flush.
- `lib/list.js` (`Remove`): modelled: list.
- `lib/log.js` (`Log`): modelled: codes, constructor, isVisible, lines; not modelled: withPrefix.
- `lib/node-gyp.js` (`Cli`): modelled: parseArgv; not modelled: constructor, spawn, usage.
- `lib/process-release.js` (`Release`): modelled: processRelease, normalizePath, resolveLibUrl.
- `lib/rebuild.js` (`Cli`): modelled: rebuild.
- `lib/remove.js` (`Install`, `Remove`): modelled: remove.
- `lib/util.js` (`Configure`, `Registry`): modelled: child, regGetValue, regSearchKeys, findAccessibleSync; not modelled: execFile.
- `update-gyp.py` (`UpdateGyp`): the script is modelled.

Not modelled in general: logging, timing, signals, file modes, character encodings, symbolic links (except where said), concurrency other than C28, and the text of error messages.

## Tests against wrong programs

`seeded/LOG.jsonl` records 1786 edits of the model made in a scratch copy, each the way a realistic bug would change the program, with the theorems that stopped proving. Where a theorem still proved although its claim had become false, it was tightened or a theorem was added, as the entry says. Edits that change nothing observable are marked as such.

