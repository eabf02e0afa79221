{
 "claims": [
  {
   "property": "C01",
   "status": "proved",
   "theorems": [
    "Gyp.C01_qualified_roundtrip",
    "Gyp.C01_qualified_roundtrip_no_toolset",
    "Gyp.C01_qualified_injective",
    "Gyp.C01_parse_text",
    "Gyp.C01_text_parse"
   ],
   "note": ""
  },
  {
   "property": "C02",
   "status": "proved",
   "theorems": [
    "Gyp.C02_target_and_toolset",
    "Gyp.C02_own_file",
    "Gyp.C02_file_denotes",
    "Gyp.C02_no_referrer",
    "Gyp.C02_canonical"
   ],
   "note": "POSIX path semantics; symbolic links are not modelled (RelativePath is given the already resolved paths)."
  },
  {
   "property": "C03",
   "status": "proved",
   "theorems": [
    "Gyp.C03_relative_path_denotes",
    "Gyp.C03_relative_path_empty_iff",
    "Gyp.C03_relative_path_minimal",
    "Gyp.C03_root_not_minimal",
    "Gyp.C03_invert_relative_path",
    "Gyp.C03_dirname_parent",
    "Gyp.C03_dirname_no_slash",
    "Gyp.C03_unrelative_path"
   ],
   "note": "POSIX branch; the root directory is the one exception to minimality, shown by C03_root_not_minimal."
  },
  {
   "property": "C04",
   "status": "proved",
   "theorems": [
    "Gyp.C04_shell_argument",
    "Gyp.C04_shell_argument_dollar",
    "Gyp.C04_dollar_stays_active"
   ],
   "note": "With $ the parameter expansion stays active inside double quotes, as documented in the code."
  },
  {
   "property": "C05",
   "status": "proved",
   "theorems": [
    "Gyp.C05_shell_list",
    "Gyp.C05_shell_list_dollar"
   ],
   "note": ""
  },
  {
   "property": "C06",
   "status": "proved",
   "theorems": [
    "Gyp.C06_enumerates",
    "Gyp.C06_reversed",
    "Gyp.C06_membership_and_length",
    "Gyp.C06_pop",
    "Gyp.C06_added_and_not_removed"
   ],
   "note": ""
  },
  {
   "property": "C07",
   "status": "proved",
   "theorems": [
    "Gyp.C07_sorted_or_cycle",
    "Gyp.C07_cycle_iff",
    "Gyp.C07_acyclic"
   ],
   "note": "For a graph whose reachable part is finite and a recursion limit above the number of nodes."
  },
  {
   "property": "C08",
   "status": "proved",
   "theorems": [
    "Gyp.C08_old_or_new",
    "Gyp.C08_equal_untouched",
    "Gyp.C08_completed",
    "Gyp.C08_windows",
    "Gyp.C08_can_complete",
    "Gyp.C08_windows_can_lose_both"
   ],
   "note": "Death of the process at any step; not power failure. The Windows branch deletes before renaming: C08_windows and C08_windows_can_lose_both."
  },
  {
   "property": "C09",
   "status": "proved",
   "theorems": [
    "Gyp.C09_uniquer",
    "Gyp.C09_unify",
    "Gyp.C09_agree"
   ],
   "note": ""
  },
  {
   "property": "C10",
   "status": "proved",
   "theorems": [
    "Gyp.C10_order"
   ],
   "note": ""
  },
  {
   "property": "C11",
   "status": "proved",
   "theorems": [
    "Gyp.C11_unknown",
    "Gyp.C11_outcome",
    "Gyp.C11_ok_iff",
    "Gyp.C11_circular"
   ],
   "note": ""
  },
  {
   "property": "C12",
   "status": "proved",
   "theorems": [
    "Gyp.C12_reported_are_cycles",
    "Gyp.C12_some_reported",
    "Gyp.C12_unreachable_not_named"
   ],
   "note": "When no search root leads to a cycle the error names none: C12_unreachable_not_named."
  },
  {
   "property": "C13",
   "status": "proved",
   "theorems": [
    "Gyp.C13_deep_dependencies"
   ],
   "note": "For an accepted (acyclic) graph."
  },
  {
   "property": "C14",
   "status": "proved",
   "theorems": [
    "Gyp.C14_direct_and_imported",
    "Gyp.C14_without_exports",
    "Gyp.C14_unknown_export"
   ],
   "note": "A re-export of a target that is not in the table raises KeyError (C14_unknown_export)."
  },
  {
   "property": "C15",
   "status": "proved",
   "theorems": [
    "Gyp.C15_link_against",
    "Gyp.C15_link_settings",
    "Gyp.C15_not_linkable",
    "Gyp.C15_final_products"
   ],
   "note": "For an accepted (acyclic) graph."
  },
  {
   "property": "C16",
   "status": "proved",
   "theorems": [
    "Gyp.C16_expansion",
    "Gyp.C16_terminates",
    "Gyp.C16_unique"
   ],
   "note": ""
  },
  {
   "property": "C17",
   "status": "proved",
   "theorems": [
    "Gyp.C17_qualified"
   ],
   "note": "The file part is located for a non-empty own file name; the toolset of the referring target is non-empty."
  },
  {
   "property": "C18",
   "status": "proved",
   "theorems": [
    "Gyp.C18_self",
    "Gyp.C18_link"
   ],
   "note": "The flag counts by Python truthiness, as in the code."
  },
  {
   "property": "C19",
   "status": "proved",
   "theorems": [
    "Gyp.C19_adjusted"
   ],
   "note": "The flat list is the one built for the table, before pruning of unwanted targets."
  },
  {
   "property": "C20",
   "status": "proved",
   "theorems": [
    "Gyp.C20_append",
    "Gyp.C20_strings"
   ],
   "note": ""
  },
  {
   "property": "C21",
   "status": "partial",
   "theorems": [
    "Gyp.C21_prepend_partial",
    "Gyp.C21_strings",
    "Gyp.C21_repeated_item",
    "Gyp.C21_any_strings"
   ],
   "note": "Prepending is proved for distinct repeat-free singletons and for any list of non-singleton strings; C21_repeated_item shows that a repeated singleton ends up in another order than the property says."
  },
  {
   "property": "C22",
   "status": "proved",
   "theorems": [
    "Gyp.C22_untouched",
    "Gyp.C22_keys",
    "Gyp.C22_scalar",
    "Gyp.C22_dict",
    "Gyp.C22_replace",
    "Gyp.C22_set_default",
    "Gyp.C22_append",
    "Gyp.C22_prepend",
    "Gyp.C22_append_and_prepend",
    "Gyp.C22_contradictory",
    "Gyp.C22_succeeds"
   ],
   "note": ""
  },
  {
   "property": "C23",
   "status": "proved",
   "theorems": [
    "Gyp.C23_path_follows",
    "Gyp.C23_unchanged",
    "Gyp.C23_trailing_slash",
    "Gyp.C23_transitive",
    "Gyp.C23_backslash"
   ],
   "note": "For names without backslash; C23_backslash shows that on POSIX a backslash in a file name is turned into a slash."
  },
  {
   "property": "C24",
   "status": "proved",
   "theorems": [
    "Gyp.C24_filter",
    "Gyp.C24_others",
    "Gyp.C24_scalars",
    "Gyp.C24_clean",
    "Gyp.C24_terminates"
   ],
   "note": "Pattern matching is an arbitrary relation. Filters whose base list name is itself a filter are excluded (NoDoubleFilter)."
  },
  {
   "property": "C25",
   "status": "proved",
   "theorems": [
    "Gyp.C25_inheritance",
    "Gyp.C25_terminates",
    "Gyp.C25_listed",
    "Gyp.C25_setup"
   ],
   "note": "An ancestor reached twice is merged twice (the code tracks the path only); the order theorem covers this."
  },
  {
   "property": "C26",
   "status": "proved",
   "theorems": [
    "Gyp.C26_accepts",
    "Gyp.C26_repeated",
    "Gyp.C26_other",
    "Gyp.C26_file"
   ],
   "note": "The syntax tree comes from Python (ast.parse is not modelled)."
  },
  {
   "property": "C27",
   "status": "proved",
   "theorems": [
    "Gyp.C27_included",
    "Gyp.C27_missing_entry"
   ],
   "note": ""
  },
  {
   "property": "C28",
   "status": "proved",
   "theorems": [
    "Gyp.C28_once",
    "Gyp.C28_complete",
    "Gyp.C28_error_iff",
    "Gyp.C28_stop",
    "Gyp.C28_progress",
    "Gyp.C28_terminates",
    "Gyp.C28_nothing",
    "Gyp.C28_sequential",
    "Gyp.C28_same"
   ],
   "note": "For a non-empty list of files (C28_nothing: an empty list crashes). A worker that succeeds or raises is modelled; a killed worker process is not."
  },
  {
   "property": "C29",
   "status": "proved",
   "theorems": [
    "Gyp.C29_group",
    "Gyp.C29_unique"
   ],
   "note": ""
  },
  {
   "property": "C30",
   "status": "proved",
   "theorems": [
    "Gyp.C30_canonical",
    "Gyp.C30_roundtrip",
    "Gyp.C30_injective",
    "Gyp.C30_other_digits"
   ],
   "note": "ASCII digits; C30_other_digits is the documented deviation for other Unicode digits."
  },
  {
   "property": "C31",
   "status": "proved",
   "theorems": [
    "Gyp.C31_entry",
    "Gyp.C31_malformed",
    "Gyp.C31_section",
    "Gyp.C31_no_section",
    "Gyp.C31_variables_for_lists"
   ],
   "note": "The truth value of an expression is an arbitrary function of its text and the variables (Python evaluates it)."
  },
  {
   "property": "C32",
   "status": "proved",
   "theorems": [
    "Gyp.C32_own",
    "Gyp.C32_enclosing",
    "Gyp.C32_default",
    "Gyp.C32_undefined",
    "Gyp.C32_no_section",
    "Gyp.C32_automatic",
    "Gyp.C32_automatic_only",
    "Gyp.C32_setting_own",
    "Gyp.C32_setting_enclosing",
    "Gyp.C32_setting_default"
   ],
   "note": "C32_setting_* state the rule for a whole dictionary with a literal variables section."
  },
  {
   "property": "C33",
   "status": "proved",
   "theorems": [
    "Gyp.C33_text",
    "Gyp.C33_list",
    "Gyp.C33_unchanged",
    "Gyp.C33_complete",
    "Gyp.C33_complete_list",
    "Gyp.C33_self_reference",
    "Gyp.C33_undefined",
    "Gyp.C33_undefined_named",
    "Gyp.C33_exclusion_list",
    "Gyp.C33_list_in_scalar",
    "Gyp.C33_list_in_text"
   ],
   "note": "References to variables (plain and list), nested in names too; commands, file lists and shell words of a value are parameters of the model. Self-reference is shown to be left unexpanded (C33_self_reference)."
  },
  {
   "property": "C34",
   "status": "proved",
   "theorems": [
    "Gyp.C34_build_targets",
    "Gyp.C34_no_collision"
   ],
   "note": "Directories are compared as spelled, as the code does."
  },
  {
   "property": "C35",
   "status": "proved",
   "theorems": [
    "Gyp.C35_pruned",
    "Gyp.C35_unknown"
   ],
   "note": ""
  },
  {
   "property": "C36",
   "status": "proved",
   "theorems": [
    "Gyp.C36_read_back",
    "Gyp.C36_read_back_pretty",
    "Gyp.C36_tab_in_attribute"
   ],
   "note": "Attribute values without tabs (a tab is read back as a space: C36_tab_in_attribute). Characters that XML cannot represent at all are excluded. The reader of Spec/Xml.lean covers the XML subset that is written."
  },
  {
   "property": "C37",
   "status": "proved",
   "theorems": [
    "Gyp.C37_escape",
    "Gyp.C37_escape_defined",
    "Gyp.C37_build_statement",
    "Gyp.C37_build_statement_wrapped",
    "Gyp.C37_bar_not_escaped",
    "Gyp.C37_dollar_blank"
   ],
   "note": "Paths contain no newline, no bar token (C37_bar_not_escaped) and no dollar followed by a blank (C37_dollar_blank); ninja syntax has no escape for these or the code does not use it."
  },
  {
   "property": "C38",
   "status": "proved",
   "theorems": [
    "Gyp.C38_wrapping_keeps_tokens",
    "Gyp.C38_wrapping_keeps_value",
    "Gyp.C38_wrapping_keeps_value_indented",
    "Gyp.C38_double_blank_lost",
    "Gyp.C38_dollar_run_glues"
   ],
   "note": "Lines without adjacent blanks at a break point; C38_double_blank_lost and C38_dollar_run_glues show the exceptions."
  },
  {
   "property": "C39",
   "status": "proved",
   "theorems": [
    "Gyp.C39_cstring",
    "Gyp.C39_cstring_injective"
   ],
   "note": ""
  },
  {
   "property": "C40",
   "status": "partial",
   "theorems": [
    "Gyp.C40_shell_argument",
    "Gyp.C40_defines_partial",
    "Gyp.C40_backslash_hash",
    "Gyp.C40_variable_name"
   ],
   "note": "Proved for texts that do not contain a hash preceded by a backslash; C40_backslash_hash shows that the code mangles those."
  },
  {
   "property": "C41",
   "status": "partial",
   "theorems": [
    "Gyp.C41_ninja_shell_argument_partial",
    "Gyp.C41_ninja_shell_argument_quoted",
    "Gyp.C41_backslash_lost",
    "Gyp.C41_final_newline_active"
   ],
   "note": "False for the code when an argument made only of safe characters contains a backslash or ends in a newline; witnesses C41_backslash_lost and C41_final_newline_active."
  },
  {
   "property": "C42",
   "status": "partial",
   "theorems": [
    "Gyp.C42_rsp_argument_partial",
    "Gyp.C42_rsp_list_partial",
    "Gyp.C42_trailing_backslash"
   ],
   "note": "Proved for arguments that do not end in a backslash run that would escape the closing quote; C42_trailing_backslash is the witness."
  },
  {
   "property": "C43",
   "status": "proved",
   "theorems": [
    "Gyp.C43_environment_block"
   ],
   "note": ""
  },
  {
   "property": "C44",
   "status": "proved",
   "theorems": [
    "Gyp.C44_total",
    "Gyp.C44_trans",
    "Gyp.C44_operators",
    "Gyp.C44_congruence",
    "Gyp.C44_order",
    "Gyp.C44_equal"
   ],
   "note": "The comparison of the code is equated with the order of PEP 440 written down separately (Spec.EarlierThan) and with equality up to trailing zeros (Spec.SameVersion)."
  },
  {
   "property": "C45",
   "status": "proved",
   "theorems": [
    "Gyp.C45_grammar",
    "Gyp.C45_printed_written",
    "Gyp.C45_roundtrip",
    "Gyp.C45_written_valid",
    "Gyp.C45_normal_form",
    "Gyp.C45_show_injective",
    "Gyp.C45_unambiguous",
    "Gyp.C45_dotted_capital",
    "Gyp.C45_long_s"
   ],
   "note": "The accepted ASCII texts are exactly those of the separate grammar Spec.Written; versions in normal form round-trip. For a few non-ASCII letters that match without case the claim is false of the code: witnesses C45_dotted_capital and C45_long_s. The limit of Python on the digits of an int is not modelled."
  },
  {
   "property": "C46",
   "status": "proved",
   "theorems": [
    "Gyp.C46_answer",
    "Gyp.C46_test_targets",
    "Gyp.C46_all",
    "Gyp.C46_compile_needed",
    "Gyp.C46_compile_suffices",
    "Gyp.C46_compile_executables",
    "Gyp.C46_invalid",
    "Gyp.C46_include_changed",
    "Gyp.C46_terminates",
    "Gyp.C46_order_independent",
    "Gyp.C46_toplevel_parent",
    "Gyp.C46_static_library_order",
    "Gyp.C46_changed_file"
   ],
   "note": "Unqualified names stand for the first target that has them; the per-name theorems assume unique names, C46_answer does not. Violations outside the hypotheses: C46_toplevel_parent (a build file at the top of the tree and a source ../x), C46_static_library_order (the rule for unlinked static libraries depends on the order of the target list)."
  },
  {
   "property": "C47",
   "status": "proved",
   "theorems": [
    "Gyp.C47_shard_name",
    "Gyp.C47_names_distinct",
    "Gyp.C47_sources",
    "Gyp.C47_targets",
    "Gyp.C47_unsplit",
    "Gyp.C47_split",
    "Gyp.C47_target_list",
    "Gyp.C47_dependencies_known",
    "Gyp.C47_name_clash",
    "Gyp.C47_negative"
   ],
   "note": "For a table whose targets have a non-negative shard count. Violations outside the hypotheses: C47_name_clash (a target that already has the name of a shard is lost), C47_negative (a negative count makes the target vanish)."
  },
  {
   "property": "C48",
   "status": "proved",
   "theorems": [
    "Gyp.C48_sorted",
    "Gyp.C48_cycle_iff",
    "Gyp.C48_normalise",
    "Gyp.C48_expand",
    "Gyp.C48_variables",
    "Gyp.C48_bare_prefix"
   ],
   "note": "The computed settings themselves are a parameter. C48_expand is for texts whose references are in brackets; C48_bare_prefix shows that bare references can be replaced in part."
  },
  {
   "property": "C49",
   "status": "proved",
   "theorems": [
    "Gyp.C49_split",
    "Gyp.C49_names",
    "Gyp.C49_nothing",
    "Gyp.C49_inherited_word",
    "Gyp.C49_env",
    "Gyp.C49_loglevel",
    "Gyp.C49_env_wins"
   ],
   "note": "nopt itself (the classification of words into options) is a parameter. Words named like members of Object.prototype: C49_inherited_word. npm_config_ variables override command-line options except loglevel (C49_env_wins)."
  },
  {
   "property": "C50",
   "status": "proved",
   "theorems": [
    "Gyp.C50_run",
    "Gyp.C50_ends",
    "Gyp.C50_rebuild"
   ],
   "note": "The outcome of each command is an arbitrary function of the history; exit codes 6 and 7 (unhandled failures of the process) are not modelled."
  },
  {
   "property": "C51",
   "status": "proved",
   "theorems": [
    "Gyp.C51_verified",
    "Gyp.C51_files",
    "Gyp.C51_complete",
    "Gyp.C51_failure"
   ],
   "note": "The world (failures of operations, answers of the network, digests, contents of archives) is an arbitrary parameter. C51_failure needs that removing a directory works. Promise.all is modelled sequentially."
  },
  {
   "property": "C52",
   "status": "partial",
   "theorems": [
    "Gyp.C52_skip_partial",
    "Gyp.C52_redone_partial",
    "Gyp.C52_interrupted"
   ],
   "note": "C52_skip_partial and C52_redone_partial: an install is skipped only if the directory and its marker are there. The rest of the property is false of the code: C52_interrupted (the marker is written before the checksums are verified, so a crash in between leaves unverified headers that are accepted later)."
  },
  {
   "property": "C53",
   "status": "proved",
   "theorems": [
    "Gyp.C53_terminates",
    "Gyp.C53_once",
    "Gyp.C53_other_errors",
    "Gyp.C53_retries",
    "Gyp.C53_gives_up",
    "Gyp.C53_forgets_version"
   ],
   "note": "C53_forgets_version: the second try does not install the version that was asked for on the command line."
  },
  {
   "property": "C54",
   "status": "proved",
   "theorems": [
    "Gyp.C54_version",
    "Gyp.C54_layout",
    "Gyp.C54_libs",
    "Gyp.C54_override",
    "Gyp.C54_release",
    "Gyp.C54_name",
    "Gyp.C54_dirs_distinct",
    "Gyp.C54_names_differ",
    "Gyp.C54_win_in_dist",
    "Gyp.C54_v3_arm64"
   ],
   "note": "The version parser is a parameter (prerelease tags without slashes); URLs are plain (no query, fragment or dot components). C54_win_in_dist and C54_v3_arm64 show the two inputs outside the hypotheses for which the library URLs are wrong."
  },
  {
   "property": "C55",
   "status": "proved",
   "theorems": [
    "Gyp.C55_first",
    "Gyp.C55_fails",
    "Gyp.C55_stops",
    "Gyp.C55_forced",
    "Gyp.C55_fallback"
   ],
   "note": "What programs print and the version parser are parameters; outcomes do not change during the search. Only NODE_GYP_FORCE_PYTHON is exclusive; an unusable --python is passed over (C55_fallback)."
  },
  {
   "property": "C56",
   "status": "proved",
   "theorems": [
    "Gyp.C56_none",
    "Gyp.C56_newest",
    "Gyp.C56_order",
    "Gyp.C56_sources",
    "Gyp.C56_requested",
    "Gyp.C56_older_source"
   ],
   "note": "What the tools report, path.resolve and the comparison of Windows paths are parameters. Newest is per source: C56_older_source shows a newer installation, known only to a later source, being passed over."
  },
  {
   "property": "C57",
   "status": "partial",
   "theorems": [
    "Gyp.C57_written_partial",
    "Gyp.C57_refused",
    "Gyp.C57_complete",
    "Gyp.C57_sibling"
   ],
   "note": "C57_written_partial: every member that is written lies in the destination or in a sibling directory whose name extends that of the destination. The full claim is false of the code (C57_sibling: the comparison is by characters). Symbolic links inside the archive are not modelled."
  },
  {
   "property": "C58",
   "status": "proved",
   "theorems": [
    "Gyp.C58_table",
    "Gyp.C58_names",
    "Gyp.C58_regenerate",
    "Gyp.C58_depth",
    "Gyp.C58_empty_value",
    "Gyp.C58_equals",
    "Gyp.C58_config_dir"
   ],
   "note": "argparse is modelled for the options gyp declares. Values of one-letter options that are empty or begin with an equals sign are excluded in the statement; C58_empty_value and C58_equals show that they are not regenerated faithfully, C58_config_dir that a relative configuration directory is written unchanged."
  },
  {
   "property": "C59",
   "status": "proved",
   "theorems": [
    "Gyp.C59_value",
    "Gyp.C59_copied",
    "Gyp.C59_unsupported",
    "Gyp.C59_cyclic",
    "Gyp.C59_independent",
    "Gyp.C59_values_kept"
   ],
   "note": "Objects live in a heap; the fuel of the copy is the recursion limit of Python. Later changes are arbitrary interleavings of loads, allocations and in-place changes by two holders of references."
  },
  {
   "property": "C60",
   "status": "proved",
   "theorems": [
    "Gyp.C60_published",
    "Gyp.C60_stops"
   ],
   "note": "C60_published says exactly which digest is used. C60_stops: the reader stops at the first line that is not an entry, so later entries are not seen (the install then fails, it never accepts more)."
  },
  {
   "property": "C61",
   "status": "proved",
   "theorems": [
    "Gyp.C61_outcome",
    "Gyp.C61_accepted_iff"
   ],
   "note": "BuildFile None of an unqualified name is treated as the empty file name."
  },
  {
   "property": "C62",
   "status": "proved",
   "theorems": [
    "Gyp.C62_result",
    "Gyp.C62_terminates",
    "Gyp.C62_exists",
    "Gyp.C62_all_targets"
   ],
   "note": ""
  },
  {
   "property": "C63",
   "status": "proved",
   "theorems": [
    "Gyp.C63_one_output",
    "Gyp.C63_order_only",
    "Gyp.C63_several_outputs"
   ],
   "note": "Variable references and wildcards in names are read before make expands them; directives and continuation lines are outside the reader."
  },
  {
   "property": "C65",
   "status": "proved",
   "theorems": [
    "Gyp.C65_gyp",
    "Gyp.C65_build",
    "Gyp.C65_option",
    "Gyp.C65_variables",
    "Gyp.C65_defaults",
    "Gyp.C65_rest",
    "Gyp.C65_minor_ignored",
    "Gyp.C65_null"
   ],
   "note": "Numbers are integers; the reader of the specification covers the part of JSON and of Python literals made of brackets, strings and integers. The configuration to start with (of the running Node or of the headers) is a parameter. C65_null: a null setting is not readable for gyp; C65_minor_ignored: the minor version of Visual Studio is never compared."
  },
  {
   "property": "C66",
   "status": "proved",
   "theorems": [
    "Gyp.C66_make",
    "Gyp.C66_configured",
    "Gyp.C66_msbuild",
    "Gyp.C66_result",
    "Gyp.C66_unconfigured",
    "Gyp.C66_own_solution",
    "Gyp.C66_windows_make"
   ],
   "note": "The command lines of make and MSBuild are read by small readers in Spec/Build. File system errors around the directory of links, which, glob and path.extname are parameters. C66_own_solution: a solution given as argument on Windows becomes a target and no solution is passed; C66_windows_make: with makefiles on Windows targets keep the MSBuild syntax."
  },
  {
   "property": "C64",
   "status": "proved",
   "theorems": [
    "Gyp.C64_settings",
    "Gyp.C64_rejected",
    "Gyp.C64_headers",
    "Gyp.C64_visual_studio",
    "Gyp.C64_configs",
    "Gyp.C64_exports",
    "Gyp.C64_result",
    "Gyp.C64_runs",
    "Gyp.C64_zoslib",
    "Gyp.C64_double_dash",
    "Gyp.C64_attached_format",
    "Gyp.C64_extra_word"
   ],
   "note": "Composed with the argument parser of C58. Path resolution is a parameter whose results do not begin with a dash. C64_double_dash: a bare -- turns the added settings into build files; C64_attached_format: --format=ninja is not noticed and make files are generated as well; C64_extra_word: a version given to configure is also taken for a build file."
  },
  {
   "property": "C67",
   "status": "proved",
   "theorems": [
    "Gyp.C67_completed",
    "Gyp.C67_found",
    "Gyp.C67_contributors",
    "Gyp.C67_present",
    "Gyp.C67_location",
    "Gyp.C67_last_wins",
    "Gyp.C67_own",
    "Gyp.C67_worked"
   ],
   "note": "Files that include themselves, directly or not, are outside the model (gyp merges the half finished dictionary). A build file included by another one after it was loaded itself is merged in its changed form: C67_worked shows that the result then depends on the order of loading. The evaluation of the text is a parameter (C26)."
  },
  {
   "property": "C68",
   "status": "proved",
   "theorems": [
    "Gyp.C68_targets",
    "Gyp.C68_others",
    "Gyp.C68_conditions",
    "Gyp.C68_again",
    "Gyp.C68_defaults",
    "Gyp.C68_no_defaults",
    "Gyp.C68_precedence",
    "Gyp.C68_depth",
    "Gyp.C68_included_files",
    "Gyp.C68_load",
    "Gyp.C68_stages",
    "Gyp.C68_reserved",
    "Gyp.C68_empty_list"
   ],
   "note": "The early processing of variables and conditions is a parameter (C31 to C33). C68_empty_list: an empty list of toolsets removes the target; a text stands for its letters. The included files are named exactly when none of them was loaded as a build file before (as in C67)."
  },
  {
   "property": "C69",
   "status": "proved",
   "theorems": [
    "Gyp.C69_reads",
    "Gyp.C69_passed_on",
    "Gyp.C69_last_offer",
    "Gyp.C69_not_offered",
    "Gyp.C69_lists"
   ],
   "note": "Without a choice of root targets. Settings that contain settings for others, or keys such as type or dependencies, are excluded (PlainSettings)."
  },
  {
   "property": "C70",
   "status": "proved",
   "theorems": [
    "Gyp.C70_types",
    "Gyp.C70_rules",
    "Gyp.C70_no_rules",
    "Gyp.C70_run_as",
    "Gyp.C70_actions",
    "Gyp.C70_rest",
    "Gyp.C70_target",
    "Gyp.C70_numbers"
   ],
   "note": "Both directions of every check; parts of the wrong type, which end in another Python exception, count as refused. None is the only value besides texts, numbers, lists and dictionaries."
  },
  {
   "property": "C71",
   "status": "proved",
   "theorems": [
    "Gyp.C71_objects",
    "Gyp.C71_compiled",
    "Gyp.C71_compiler",
    "Gyp.C71_absolute",
    "Gyp.C71_distinct",
    "Gyp.C71_outside"
   ],
   "note": "The statements of the target makefile are modelled as data with the text that is written; make's reading (immediate and deferred variables, target-specific variables, pattern rules) is specified in Spec/MakeGraph. The text of single rules is covered by C63."
  },
  {
   "property": "C72",
   "status": "proved",
   "theorems": [
    "Gyp.C72_objects_wait",
    "Gyp.C72_special_wait",
    "Gyp.C72_output_waits",
    "Gyp.C72_action",
    "Gyp.C72_rule",
    "Gyp.C72_copy",
    "Gyp.C72_link",
    "Gyp.C72_group",
    "Gyp.C72_written"
   ],
   "note": "Order and rebuild relations are those of the rules make reads from the statements (C63 reads the text of each rule). Names with blanks and other special characters are excluded by TargetOk."
  },
  {
   "property": "C73",
   "status": "proved",
   "theorems": [
    "Gyp.C73_installed",
    "Gyp.C73_alias",
    "Gyp.C73_all",
    "Gyp.C73_written",
    "Gyp.C73_name",
    "Gyp.C73_everything",
    "Gyp.C73_depends",
    "Gyp.C73_files",
    "Gyp.C73_files_output",
    "Gyp.C73_products",
    "Gyp.C73_same_product"
   ],
   "note": "The loop over targets, product names, installation and alias rules are modelled; the rules of all makefiles are read with make's semantics of variables and of rules."
  },
  {
   "property": "C75",
   "status": "proved",
   "theorems": [
    "Gyp.C75_compile",
    "Gyp.C75_link",
    "Gyp.C75_shared_variable"
   ],
   "note": "The makefile text of a target is read by a specification of make (assignments with := in order, target-specific variables, references with computed names) and the resulting command line by a specification of the shell. Definitions must not contain newlines or backslash-number sign; flags without quotation marks may refer to the variables of the header and are split by the shell; flags with a quotation mark must not contain dollars, backquotes, backslashes or number signs. Configurations named C_X or CC_X next to X are excluded (C75_shared_variable is the counterexample). macOS is not modelled."
  },
  {
   "property": "C74",
   "status": "proved",
   "theorems": [
    "Gyp.C74_action",
    "Gyp.C74_rule",
    "Gyp.C74_second_output",
    "Gyp.C74_shared_command",
    "Gyp.C74_number_sign"
   ],
   "note": "For the command line that make passes to the shell when the first output is wanted (C74_action, C74_rule); the shell's reading is the one of Spec/MakeActions. C74_second_output, C74_shared_command and C74_number_sign show what is excluded."
  },
  {
   "property": "C76",
   "status": "proved",
   "theorems": [
    "Gyp.C76_needed",
    "Gyp.C76_recipe",
    "Gyp.C76_history",
    "Gyp.C76_number_sign"
   ],
   "note": "The canned recipe of the header, expanded by a specification of GNU make's functions; recorded and read back through the shell and make; induction over sequences of builds."
  },
  {
   "property": "C77",
   "status": "proved",
   "theorems": [
    "Gyp.C77_messages",
    "Gyp.C77_colors"
   ],
   "note": "For every sequence of events, against a specification by positions in the sequence."
  },
  {
   "property": "C78",
   "status": "partial",
   "theorems": [
    "Gyp.C78_msbuild_partial",
    "Gyp.C78_refused",
    "Gyp.C78_vcproj_partial",
    "Gyp.C78_vcproj_odd",
    "Gyp.C78_lists",
    "Gyp.C78_options"
   ],
   "note": "Proved for every list of definitions without a backslash directly in front of a quote (MSBuild), and with an even number of quotes and no backslash at the end (Visual Studio 2008). The others are refused with a TypeError (exactly these, C78_refused) or misread (C78_vcproj_odd). Definitions that contain the octal number sign themselves are not told apart from those with a number sign."
  },
  {
   "property": "C79",
   "status": "proved",
   "theorems": [
    "Gyp.C79_macros",
    "Gyp.C79_settings",
    "Gyp.C79_order",
    "Gyp.C79_warnings",
    "Gyp.C79_failure",
    "Gyp.C79_valid",
    "Gyp.C79_flags",
    "Gyp.C79_unsigned_char",
    "Gyp.C79_negative_number",
    "Gyp.C79_browse_information"
   ],
   "note": "C79_macros: the sequence of textual replacements is a simultaneous renaming of macros (specified by an inductive relation). C79_settings: exact characterisation of every setting of MSBuild after the conversion; two settings have two sources, for them both sources must not be given (C79_unsigned_char shows what happens otherwise). C79_order, C79_warnings (exactly the warnings), C79_failure (exactly the failures), C79_valid (the result passes the validation), C79_flags (numbers and labels of 30 settings stand for the same options, after Microsoft's documentation). C79_negative_number and C79_browse_information are oddities."
  },
  {
   "property": "C80",
   "status": "proved",
   "theorems": [
    "Gyp.C80_items",
    "Gyp.C80_excluded",
    "Gyp.C80_precompiled",
    "Gyp.C80_stops",
    "Gyp.C80_type",
    "Gyp.C80_object",
    "Gyp.C80_object_variable",
    "Gyp.C80_objects_apart",
    "Gyp.C80_folders",
    "Gyp.C80_sources",
    "Gyp.C80_sources_once",
    "Gyp.C80_partly_excluded",
    "Gyp.C80_shared_objects",
    "Gyp.C80_listed_twice",
    "Gyp.C80_unlisted_fails"
   ],
   "note": "ntpath's normpath, isabs and join are parameters; paths are assumed to be in normal form after fixing. The values rules contribute (extensions, dependencies, idl) are parameters."
  },
  {
   "property": "C81",
   "status": "proved",
   "theorems": [
    "Gyp.C81_no_load",
    "Gyp.C81_listed",
    "Gyp.C81_read",
    "Gyp.C81_apart",
    "Gyp.C81_rules",
    "Gyp.C81_again",
    "Gyp.C81_command",
    "Gyp.C81_options",
    "Gyp.C81_sub",
    "Gyp.C81_same_directory",
    "Gyp.C81_number_sign",
    "Gyp.C81_blank",
    "Gyp.C81_prefix"
   ],
   "note": "The readings of make (conditionals with NO_LOAD, include, rules, variables) and of the shell are written out in Spec/MakeRoot.lean, Spec/MakeRules.lean and Spec/MakeActions.lean. Hypotheses: paths without blanks and characters special to make, the top directory is the working directory if there is an output directory (as for node-gyp), the output directory is not the top directory; the theorems under \"what the code does not do\" show what happens otherwise."
  },
  {
   "property": "C82",
   "status": "proved",
   "theorems": [
    "Gyp.C82_items",
    "Gyp.C82_runs",
    "Gyp.C82_unnoticed",
    "Gyp.C82_arguments",
    "Gyp.C82_copy",
    "Gyp.C82_copy_sets",
    "Gyp.C82_copy_fails",
    "Gyp.C82_word",
    "Gyp.C82_quote",
    "Gyp.C82_backslash",
    "Gyp.C82_directory",
    "Gyp.C82_top_directory",
    "Gyp.C82_spelling",
    "Gyp.C82_no_words",
    "Gyp.C82_cygwin"
   ],
   "note": "All steps are attached once and in order (C82_items), run until the first failure (C82_runs, for commands that do not set ERRORLEVEL; copies do, C82_unnoticed and C82_copy_sets say what happens then), arguments (C82_arguments) and copies of files (C82_copy). Commands of cygwin are modelled; about them only when the environment is set up is proved. Copies of directories: see the witnesses."
  },
  {
   "property": "C83",
   "status": "proved",
   "theorems": [
    "Gyp.C83_text",
    "Gyp.C83_headers",
    "Gyp.C83_own",
    "Gyp.C83_missing",
    "Gyp.C83_always",
    "Gyp.C83_numberSign",
    "Gyp.C83_truth",
    "Gyp.C83_comma",
    "Gyp.C83_apostrophe",
    "Gyp.C83_blank",
    "Gyp.C83_protected"
   ],
   "note": "Texts with quotes, backslashes or number signs, and truth values, are outside the grammar of the theorem: witnesses show that they are misread or make configure fall back to the settings of the running Node.js."
  },
  {
   "property": "C84",
   "status": "proved",
   "theorems": [
    "Gyp.C84_list",
    "Gyp.C84_remove",
    "Gyp.C84_none",
    "Gyp.C84_listed",
    "Gyp.C84_others",
    "Gyp.C84_again",
    "Gyp.C84_spelling",
    "Gyp.C84_installed",
    "Gyp.C84_clean",
    "Gyp.C84_parent",
    "Gyp.C84_path",
    "Gyp.C84_iojs",
    "Gyp.C84_other_spelling"
   ],
   "note": "The disk has no symbolic links and every operation on something that exists succeeds. Names that are paths lead out of the directory of the development files (witnesses)."
  },
  {
   "property": "C85",
   "status": "proved",
   "theorems": [
    "Gyp.C85_bundled",
    "Gyp.C85_program",
    "Gyp.C85_unknown",
    "Gyp.C85_exports",
    "Gyp.C85_project",
    "Gyp.C85_deps",
    "Gyp.C85_cwd"
   ],
   "note": "Paths have slashes; drives and backslashes of Windows are not modelled. A project that has npm among its own dependencies is mistaken for an installation (witness)."
  },
  {
   "property": "C86",
   "status": "proved",
   "theorems": [
    "Gyp.C86_variants",
    "Gyp.C86_projects",
    "Gyp.C86_guid",
    "Gyp.C86_dependencies",
    "Gyp.C86_configurations",
    "Gyp.C86_exists",
    "Gyp.C86_folders",
    "Gyp.C86_flat",
    "Gyp.C86_references",
    "Gyp.C86_made",
    "Gyp.C86_underscore",
    "Gyp.C86_target_platform",
    "Gyp.C86_lacking",
    "Gyp.C86_cross",
    "Gyp.C86_guid_newline",
    "Gyp.C86_same_file"
   ],
   "note": "All order-dependent choices (sets of configurations and entries, traversal of dependencies) are quantified over. Assumed: names without quotes, newlines and backslashes, targets that do not share a project file, and for configurations and folders GUIDs that do not collide."
  },
  {
   "property": "C87",
   "status": "proved",
   "theorems": [
    "Gyp.C87_values",
    "Gyp.C87_made",
    "Gyp.C87_clear",
    "Gyp.C87_directories",
    "Gyp.C87_search_path",
    "Gyp.C87_kind",
    "Gyp.C87_details",
    "Gyp.C87_extensions",
    "Gyp.C87_output_twice",
    "Gyp.C87_circle_between",
    "Gyp.C87_spelling",
    "Gyp.C87_two_values"
   ],
   "note": "The group is read by a small MSBuild evaluator (elements in order, conditions on Configuration and Platform compared as text, references to properties replaced). The values theorem is for any calls that are clear (one value for a name and configuration); the target theorems assume the usual target: apart configurations, attributes converted from the old kind, the same extension in all. Drivers, Windows runtime targets and Android toolsets are left out."
  },
  {
   "property": "C88",
   "status": "proved",
   "theorems": [
    "Gyp.C88_settings",
    "Gyp.C88_refused",
    "Gyp.C88_written",
    "Gyp.C88_shared",
    "Gyp.C88_import_library",
    "Gyp.C88_no_product",
    "Gyp.C88_text_twice"
   ],
   "note": "C88_settings relates the settings that are given to those each tool ends up with (specification `SettingsOf`, one field for each documented setting and a frame for all others); C88_refused says that generation fails exactly when no such settings exist; C88_written that the text in the project file is that of the value, though the list of definitions is shared: the resource compiler may get the reference to inherited definitions twice. Witnesses: C88_shared, C88_import_library, C88_no_product, C88_text_twice."
  },
  {
   "property": "C89",
   "status": "proved",
   "theorems": [
    "Gyp.C89_read",
    "Gyp.C89_target_compilers",
    "Gyp.C89_target_archiver",
    "Gyp.C89_target_linker",
    "Gyp.C89_host_compilers",
    "Gyp.C89_host_others",
    "Gyp.C89_pli",
    "Gyp.C89_flags",
    "Gyp.C89_zos",
    "Gyp.C89_same_environment",
    "Gyp.C89_refused",
    "Gyp.C89_same_settings",
    "Gyp.C89_archiver_setting",
    "Gyp.C89_configured_compiler_stays"
   ],
   "note": "For values that fit into a line of a makefile (no newline, no comment sign, no backslash at the end). make reads the text line by line in Spec/MakeTools.lean: origins, conditional and plain assignments, the condition on the origin. Hosts other than Windows."
  },
  {
   "property": "C90",
   "status": "proved",
   "theorems": [
    "Gyp.C90_entries",
    "Gyp.C90_directory",
    "Gyp.C90_not_listed"
   ],
   "note": "flavors other than mac; json.dump is not modelled (the values dumped are); the names of configurations of one target are distinct (they are keys of a dictionary)"
  },
  {
   "property": "C91",
   "status": "proved",
   "theorems": [
    "Gyp.C91_graph",
    "Gyp.C91_made"
   ],
   "note": "json.dump and the name of the file are not modelled"
  },
  {
   "property": "C92",
   "status": "proved",
   "theorems": [
    "Gyp.C92_override",
    "Gyp.C92_refused",
    "Gyp.C92_selected",
    "Gyp.C92_fallback",
    "Gyp.C92_asked",
    "Gyp.C92_setup",
    "Gyp.C92_setup_native",
    "Gyp.C92_sxs",
    "Gyp.C92_override_wins",
    "Gyp.C92_2012_last"
   ],
   "note": "registry, file system, path functions and environment are parameters (only that joining a non-empty path gives a non-empty path is assumed); cygpath and the ways of reading the registry are not modelled"
  },
  {
   "property": "C93",
   "status": "proved",
   "theorems": [
    "Gyp.C93_switches",
    "Gyp.C93_intel",
    "Gyp.C93_valued",
    "Gyp.C93_warnings",
    "Gyp.C93_only",
    "Gyp.C93_only_cxx",
    "Gyp.C93_refused",
    "Gyp.C93_sdk",
    "Gyp.C93_arch",
    "Gyp.C93_fat",
    "Gyp.C93_archs",
    "Gyp.C93_c",
    "Gyp.C93_cxx_other",
    "Gyp.C93_cxx_switches",
    "Gyp.C93_cxx_valued",
    "Gyp.C93_objc",
    "Gyp.C93_conditional",
    "Gyp.C93_device",
    "Gyp.C93_unconditional",
    "Gyp.C93_fat_witness",
    "Gyp.C93_text_witness"
   ],
   "note": "Exact conditions for every flag (tables of switches and of settings with values), order of the flags, independence of settings that are not known, refusals, architectures for Xcode 5.1 and later, conditional settings. Bundles, tests and extensions are not modelled, nor header maps."
  },
  {
   "property": "C94",
   "status": "proved",
   "theorems": [
    "Gyp.C94_maps_file",
    "Gyp.C94_maps_section",
    "Gyp.C94_maps_directory",
    "Gyp.C94_maps_other",
    "Gyp.C94_per_target",
    "Gyp.C94_standard_at",
    "Gyp.C94_standard",
    "Gyp.C94_install_default",
    "Gyp.C94_install_own",
    "Gyp.C94_install_refused",
    "Gyp.C94_own",
    "Gyp.C94_same_machine",
    "Gyp.C94_directories",
    "Gyp.C94_install_flag",
    "Gyp.C94_switches",
    "Gyp.C94_valued",
    "Gyp.C94_framework",
    "Gyp.C94_library",
    "Gyp.C94_library_other",
    "Gyp.C94_sdk_library",
    "Gyp.C94_libraries",
    "Gyp.C94_two_entries_witness",
    "Gyp.C94_file_end_witness",
    "Gyp.C94_standard_witness"
   ],
   "note": "Targets that are not bundles; toolset target only where the code asks for it. The patterns for linker flags are modelled as greedy matching with backtracking."
  },
  {
   "property": "C95",
   "status": "proved",
   "theorems": [
    "Gyp.C95_certificates",
    "Gyp.C95_unique",
    "Gyp.C95_no_file",
    "Gyp.C95_proxy",
    "Gyp.C95_null",
    "Gyp.C95_null_witness"
   ],
   "note": "The pieces are characterised by an inductive relation on the text; the relation has one solution (`C95_unique`)."
  },
  {
   "property": "C96",
   "status": "proved",
   "theorems": [
    "Gyp.C96_value",
    "Gyp.C96_found",
    "Gyp.C96_search",
    "Gyp.C96_failed",
    "Gyp.C96_empty_witness",
    "Gyp.C96_like_witness"
   ],
   "note": "The pattern is modelled with its backtracking.  The result for what reg.exe prints for one value is its data; the hypothesis that the key is not printed like the name excludes only keys that begin with the name of the value."
  },
  {
   "property": "C97",
   "status": "proved",
   "theorems": [
    "Gyp.C97_platforms",
    "Gyp.C97_platform_other",
    "Gyp.C97_given",
    "Gyp.C97_no_compiler",
    "Gyp.C97_compiler_order",
    "Gyp.C97_compiler_flags",
    "Gyp.C97_macros",
    "Gyp.C97_format",
    "Gyp.C97_given_first",
    "Gyp.C97_make",
    "Gyp.C97_msvs",
    "Gyp.C97_tool",
    "Gyp.C97_build_files",
    "Gyp.C97_custom_witness",
    "Gyp.C97_number"
   ],
   "note": "Running a compiler and shlex.split are parameters.  The macros are read from the lines of the output with either end of lines; the variables are given by name for make and msvs."
  },
  {
   "property": "C98",
   "status": "proved",
   "theorems": [
    "Gyp.C98_expand",
    "Gyp.C98_sources",
    "Gyp.C98_excluded",
    "Gyp.C98_sources_once",
    "Gyp.C98_native",
    "Gyp.C98_stops",
    "Gyp.C98_names",
    "Gyp.C98_elements",
    "Gyp.C98_kind",
    "Gyp.C98_kind_other",
    "Gyp.C98_capital",
    "Gyp.C98_dependencies",
    "Gyp.C98_external_step",
    "Gyp.C98_external_makefile",
    "Gyp.C98_external_stops",
    "Gyp.C98_cygwin",
    "Gyp.C98_rules",
    "Gyp.C98_trigger_witness",
    "Gyp.C98_output_witness",
    "Gyp.C98_name_witness"
   ],
   "note": "Rules of msvs projects. Quirks proved: a capital letter in the extension of a rule means it is never used (C98_capital); with a project in its own directory the file of a rule stays excluded (C98_trigger_witness) and outputs get the path to the project three times (C98_output_witness); two rules can share a name (C98_name_witness). The text of .props, .targets and .xml files is not modelled."
  },
  {
   "property": "C99",
   "status": "proved",
   "theorems": [
    "Gyp.C99_directories",
    "Gyp.C99_path",
    "Gyp.C99_arguments",
    "Gyp.C99_product_path",
    "Gyp.C99_intermediate_path",
    "Gyp.C99_same_file",
    "Gyp.C99_object",
    "Gyp.C99_absolute",
    "Gyp.C99_objects_apart",
    "Gyp.C99_targets_apart",
    "Gyp.C99_toolsets_apart",
    "Gyp.C99_object_witness",
    "Gyp.C99_rule_letters",
    "Gyp.C99_rules_apart",
    "Gyp.C99_rule_witness",
    "Gyp.C99_file_name",
    "Gyp.C99_same_as_make",
    "Gyp.C99_make_witness",
    "Gyp.C99_product_place",
    "Gyp.C99_toolset_witness"
   ],
   "note": "Stated with the meaning of paths (walk) for flavors other than mac and win; clashes outside of the conditions have witnesses."
  },
  {
   "property": "C100",
   "status": "proved",
   "theorems": [
    "Gyp.C100_compile",
    "Gyp.C100_link",
    "Gyp.C100_final",
    "Gyp.C100_nothing",
    "Gyp.C100_none_witness",
    "Gyp.C100_all",
    "Gyp.C100_names",
    "Gyp.C100_all_witness"
   ],
   "note": "For the flavors other than win, mac and ios, one configuration, without bundles; hooks and depfiles are left out."
  },
  {
   "property": "C102",
   "status": "partial",
   "theorems": [
    "Gyp.C102_steps_partial",
    "Gyp.C102_actions",
    "Gyp.C102_rules",
    "Gyp.C102_copies",
    "Gyp.C102_witness"
   ],
   "note": "Missing: rules after a rule with two inputs and three sources do not wait for needed targets, the code drops the dependency (`C102_witness`); the statements themselves are proved in full."
  },
  {
   "property": "C101",
   "status": "proved",
   "theorems": [
    "Gyp.C101_compiles",
    "Gyp.C101_linked",
    "Gyp.C101_archive",
    "Gyp.C101_link",
    "Gyp.C101_cpp"
   ],
   "note": "For the flavors other than win, mac and ios, one configuration; flags of compilers and linkers are left out."
  },
  {
   "property": "C103",
   "status": "proved",
   "theorems": [
    "Gyp.C103_sdk",
    "Gyp.C103_version",
    "Gyp.C103_minimum",
    "Gyp.C103_missing",
    "Gyp.C103_named",
    "Gyp.C103_arm",
    "Gyp.C103_toolset",
    "Gyp.C103_order",
    "Gyp.C103_imports",
    "Gyp.C103_configurations",
    "Gyp.C103_text_order_witness",
    "Gyp.C103_twice_witness"
   ],
   "note": "Text of the parts that other claims are about is a parameter; the registry and directories are parameters; \\d is an ASCII digit."
  },
  {
   "property": "C104",
   "status": "proved",
   "theorems": [
    "Gyp.C104_order",
    "Gyp.C104_circular",
    "Gyp.C104_targets",
    "Gyp.C104_finished",
    "Gyp.C104_settings_gone",
    "Gyp.C104_late_settings_witness"
   ],
   "note": "Composition of all passes of Load after the files are loaded; the results of the single passes (C10, C16, C17, C18, C24, C25, C34, C35, C70) are used for the whole. Settings that target conditions add too late are refused (C104_late_settings_witness)."
  },
  {
   "property": "C105",
   "status": "partial",
   "theorems": [
    "Gyp.C105_text_partial",
    "Gyp.C105_text_quoted",
    "Gyp.C105_comment",
    "Gyp.C105_value_partial",
    "Gyp.C105_file_partial",
    "Gyp.C105_one_reading",
    "Gyp.C105_return_witness",
    "Gyp.C105_newline_witness",
    "Gyp.C105_slashes_witness"
   ],
   "note": "Proved for whole files against an independent reader of property lists. Partial because three kinds of text are not read back: with a carriage return (read as a newline), unquoted with a final newline (lost), unquoted and beginning with // (read as a comment); each has a witness. Required properties are not checked in the model."
  },
  {
   "property": "C106",
   "status": "partial",
   "theorems": [
    "Gyp.C106_symbols_and_strip",
    "Gyp.C106_unknown_style",
    "Gyp.C106_make_partial",
    "Gyp.C106_make_success",
    "Gyp.C106_make_failure",
    "Gyp.C106_ninja",
    "Gyp.C106_ninja_signs_last",
    "Gyp.C106_make_signs_first",
    "Gyp.C106_make_hash",
    "Gyp.C106_make_blanks"
   ],
   "note": "Symbols, stripping and the order are proved for all settings with a known style and plain flags, in makefiles (`C106_make_partial`, through make, the loop, eval and the shell) and ninja files (`C106_ninja`, through ninja and the shell). Missing: in makefiles signing comes before the own commands (`C106_make_signs_first`), `#` cuts the line (`C106_make_hash`), blanks in a row become one (`C106_make_blanks`); arguments with `$` and characters of patterns are left to make and the shell."
  },
  {
   "property": "C107",
   "status": "proved",
   "theorems": [
    "Gyp.C107_variable",
    "Gyp.C107_list",
    "Gyp.C107_list_adds",
    "Gyp.C107_list_not",
    "Gyp.C107_defines",
    "Gyp.C107_flags",
    "Gyp.C107_path",
    "Gyp.C107_plain_path",
    "Gyp.C107_sources",
    "Gyp.C107_actions",
    "Gyp.C107_directories",
    "Gyp.C107_option_word",
    "Gyp.C107_target_name"
   ],
   "note": "CMake files: values, lists, properties, paths and actions are read back under the rules of cmake-language(7); WriteRules (C116), WriteCopies (C115) and the rest of WriteTarget are not part of this claim. References ${x} are read as references, as the generator intends. Values that CMake lists cannot hold are shown to come out otherwise (C107_list_not), and a list of two or more is added to a variable that is already set (C107_list_adds)."
  },
  {
   "property": "C108",
   "status": "proved",
   "theorems": [
    "Gyp.C108_readable",
    "Gyp.C108_kinds",
    "Gyp.C108_made",
    "Gyp.C108_uncompiled",
    "Gyp.C108_flags",
    "Gyp.C108_defines",
    "Gyp.C108_link_flags",
    "Gyp.C108_by_default",
    "Gyp.C108_includes",
    "Gyp.C108_shared_file"
   ],
   "note": "For a target whose texts are read by CMake as their meanings (TargetFits), reading the text succeeds and the commands read have the stated properties. The settings of Xcode and the directory and name of the product are not modelled."
  },
  {
   "property": "C109",
   "status": "proved",
   "theorems": [
    "Gyp.C109_made_after",
    "Gyp.C109_actions_after",
    "Gyp.C109_linked",
    "Gyp.C109_none_forgotten",
    "Gyp.C109_sdk"
   ],
   "note": "The dependencies, libraries and order that CMake is told, as an equality of lists for linking and an equivalence for the order."
  },
  {
   "property": "C110",
   "status": "partial",
   "theorems": [
    "Gyp.C110_marked",
    "Gyp.C110_written",
    "Gyp.C110_listed_partial",
    "Gyp.C110_fails"
   ],
   "note": "The code marks the wrong files: those that are not objects (C110_marked), and fails when there are none (C110_written, C110_fails). Proved: the objects are among the files of the target all the same (C110_listed_partial)."
  },
  {
   "property": "C111",
   "status": "partial",
   "theorems": [
    "Gyp.C111_name",
    "Gyp.C111_shape",
    "Gyp.C111_distinct_partial",
    "Gyp.C111_collisions"
   ],
   "note": "Which name a target gets (C111_name, C111_shape); names differ unless those with files are equal or one is the other without (C111_distinct_partial). Both can happen (C111_collisions), so the full property fails."
  },
  {
   "property": "C112",
   "status": "partial",
   "theorems": [
    "Gyp.C112_found_partial",
    "Gyp.C112_flat",
    "Gyp.C112_stays",
    "Gyp.C112_again",
    "Gyp.C112_directory_twice",
    "Gyp.C112_absolute",
    "Gyp.C112_variable_inside",
    "Gyp.C112_leading_variable",
    "Gyp.C112_merged"
   ],
   "note": "Proved for relative paths that name no variable, and for all trees when groups are merged. Adding again is proved for files only: a directory added twice fails. Absolute paths and variables inside a path lead elsewhere; all three have witnesses."
  },
  {
   "property": "C113",
   "status": "proved",
   "theorems": [
    "Gyp.C113_layout",
    "Gyp.C113_name",
    "Gyp.C113_no_bundle",
    "Gyp.C113_program",
    "Gyp.C113_resource",
    "Gyp.C113_resources",
    "Gyp.C113_apart",
    "Gyp.C113_same",
    "Gyp.C113_taken"
   ],
   "note": "Names are taken to be nonempty and without a slash. A resource that is called just .xib or ..storyboard is left out of C113_resource and C113_same."
  },
  {
   "property": "C114",
   "status": "partial",
   "theorems": [
    "Gyp.C114_hashed",
    "Gyp.C114_form",
    "Gyp.C114_same",
    "Gyp.C114_differ",
    "Gyp.C114_unique",
    "Gyp.C114_merged_partial",
    "Gyp.C114_directories",
    "Gyp.C114_kept_partial",
    "Gyp.C114_files",
    "Gyp.C114_same_name"
   ],
   "note": "The full property fails: the root group Source of a project whose only directory is called Source loses its name on merging, so that the ids of all files change when a file is added beside it (C114_same_name). Proved for all other trees that adding relative paths makes (C114_directories shows that they meet the hypothesis). What is hashed for targets, build phases and configurations is not modelled."
  },
  {
   "property": "C115",
   "status": "partial",
   "theorems": [
    "Gyp.C115_copies_partial",
    "Gyp.C115_nothing",
    "Gyp.C115_which",
    "Gyp.C115_places",
    "Gyp.C115_blank"
   ],
   "note": "Proved for sources and destinations that can stand bare in a CMake file (letters, digits, some signs, and references to variables). The code writes them unquoted, so that a name with a blank falls apart and the wrong files are copied (C115_blank)."
  },
  {
   "property": "C116",
   "status": "partial",
   "theorems": [
    "Gyp.C116_rules_partial",
    "Gyp.C116_places",
    "Gyp.C116_sources",
    "Gyp.C116_no_directory",
    "Gyp.C116_above"
   ],
   "note": "Proved for outputs, directories and messages that can stand bare once the variables of the source are put in. The code writes the directories unquoted: with a source that has no directory and an output beside it make_directory is told nothing (C116_no_directory). Paths are cleaned up before the variables are put in, so that an output above the directory of the source is looked for elsewhere (C116_above); C116_places says where an output leads with the variables taken as names."
  },
  {
   "property": "C117",
   "status": "partial",
   "theorems": [
    "Gyp.C117_operators",
    "Gyp.C117_series",
    "Gyp.C117_compatible_partial",
    "Gyp.C117_compatible_v",
    "Gyp.C117_compatible_words",
    "Gyp.C117_greater_gap",
    "Gyp.C117_arbitrary",
    "Gyp.C117_prereleases",
    "Gyp.C117_contains",
    "Gyp.C117_filter",
    "Gyp.C117_set_prereleases",
    "Gyp.C117_set_contains",
    "Gyp.C117_set_meets",
    "Gyp.C117_installed",
    "Gyp.C117_told",
    "Gyp.C117_set_filter",
    "Gyp.C117_empty_set",
    "Gyp.C117_no_fallback",
    "Gyp.C117_arbitrary_text"
   ],
   "note": "The operators, series, sets, filters and the treatment of pre-releases are proved for all versions and all ways to write them; ~= is proved for versions as they are printed, and is wrong for other spellings (C117_compatible_v, C117_compatible_words). The pattern that takes the operator and version out of a text is not modelled."
  },
  {
   "property": "C118",
   "status": "proved",
   "theorems": [
    "Gyp.C118_sorted",
    "Gyp.C118_any_order",
    "Gyp.C118_main_group",
    "Gyp.C118_products",
    "Gyp.C118_main_any_order",
    "Gyp.C118_files_in_main_group"
   ],
   "note": "The comparison of the main group is modelled with its question about the class of the first object only; files with the name of a place in the main group are outside the theorem on the main group (witness C118_files_in_main_group)."
  },
  {
   "property": "C119",
   "status": "partial",
   "theorems": [
    "Gyp.C119_lookup",
    "Gyp.C119_one_result",
    "Gyp.C119_places",
    "Gyp.C119_header_partial",
    "Gyp.C119_never_finished"
   ],
   "note": "The table and the numbers are right for all lists (C119_lookup, C119_places, C119_header_partial); the file is never complete, since the texts are given to struct.pack as str, which Python 3 refuses, and an empty list has no longest path (C119_never_finished)."
  },
  {
   "property": "C120",
   "status": "proved",
   "theorems": [
    "Gyp.C120_merge_two",
    "Gyp.C120_merge",
    "Gyp.C120_text",
    "Gyp.C120_expand",
    "Gyp.C120_values",
    "Gyp.C120_entitlements",
    "Gyp.C120_twice",
    "Gyp.C120_profile",
    "Gyp.C120_profile_last",
    "Gyp.C120_named"
   ],
   "note": "Reading and writing of property lists (plistlib.readPlist and writePlist, gone from Python 3.9) and fnmatch are outside the model; fnmatch is a parameter. Values with a dollar in them are expanded again (witness C120_twice) and are outside C120_text."
  },
  {
   "property": "C121",
   "status": "partial",
   "theorems": [
    "Gyp.C121_value",
    "Gyp.C121_only",
    "Gyp.C121_unambiguous",
    "Gyp.C121_roundtrip_partial",
    "Gyp.C121_double"
   ],
   "note": "Comparisons are tokens whose outcome is a parameter. Writing and reading again is proved for markers without brackets right inside brackets; for the others it is false (C121_double)."
  },
  {
   "property": "C122",
   "status": "proved",
   "theorems": [
    "Gyp.C122_list",
    "Gyp.C122_target",
    "Gyp.C122_helpers",
    "Gyp.C122_agree",
    "Gyp.C122_others",
    "Gyp.C122_stops",
    "Gyp.C122_one_file",
    "Gyp.C122_clash"
   ],
   "note": "Configurations hold the keys that are read or written and a rest; targets share no configurations. The condition that no target has one of the new names is needed (C122_clash)."
  },
  {
   "property": "C123",
   "status": "partial",
   "theorems": [
    "Gyp.C123_name",
    "Gyp.C123_name_twice",
    "Gyp.C123_name_form",
    "Gyp.C123_validate_partial",
    "Gyp.C123_is_normalized_partial",
    "Gyp.C123_canonical_taken",
    "Gyp.C123_double_dash",
    "Gyp.C123_newline",
    "Gyp.C123_version",
    "Gyp.C123_version_read",
    "Gyp.C123_no_version"
   ],
   "note": "Recognising canonical names is proved for texts without two dashes in a row and without a newline at the end; for the others it is false (C123_double_dash, C123_newline). All about forms of names and versions is proved in full for ASCII."
  },
  {
   "property": "C124",
   "status": "proved",
   "theorems": [
    "Gyp.C124_wheel_sound",
    "Gyp.C124_wheel_complete",
    "Gyp.C124_wheel_unique",
    "Gyp.C124_sdist",
    "Gyp.C124_empty_parts"
   ],
   "note": "ASCII file names without a line end; the order of tags in the set is left open, as in the code."
  },
  {
   "property": "C125",
   "status": "proved",
   "theorems": [
    "Gyp.C125_manylinux",
    "Gyp.C125_manylinux_order",
    "Gyp.C125_manylinux_read",
    "Gyp.C125_abi",
    "Gyp.C125_manylinux_none",
    "Gyp.C125_before_two",
    "Gyp.C125_musllinux",
    "Gyp.C125_musllinux_order",
    "Gyp.C125_cpython_order",
    "Gyp.C125_cpython",
    "Gyp.C125_compatible",
    "Gyp.C125_compatible_order"
   ],
   "note": "The ELF header and the version of libc are given; Python versions have a major and a minor number; ABIs and architectures are listed once; earlier major versions of glibc count with minor versions up to 50, as in the code."
  },
  {
   "property": "C126",
   "status": "proved",
   "theorems": [
    "Gyp.C126_exact",
    "Gyp.C126_read",
    "Gyp.C126_order",
    "Gyp.C126_newer",
    "Gyp.C126_powerpc"
   ],
   "note": "The version and the architecture are given; asking the system for them is not modelled."
  },
  {
   "property": "C127",
   "status": "proved",
   "theorems": [
    "Gyp.C127_header",
    "Gyp.C127_interpreter",
    "Gyp.C127_one"
   ],
   "note": "Bytes are natural numbers; the bytes of the interpreter are not decoded; a seek beyond what the system allows is not modelled."
  },
  {
   "property": "C128",
   "status": "partial",
   "theorems": [
    "Gyp.C128_targets",
    "Gyp.C128_settings",
    "Gyp.C128_own_settings_partial",
    "Gyp.C128_leak",
    "Gyp.C128_same_name",
    "Gyp.C128_files"
   ],
   "note": "Own settings hold where the configurations agree; in general the settings of one configuration get into the others (C128_leak). Regular expressions are arbitrary sets of names; relpath is any function."
  },
  {
   "property": "C129",
   "status": "partial",
   "theorems": [
    "Gyp.C129_environment",
    "Gyp.C129_arguments_partial",
    "Gyp.C129_empty_argument",
    "Gyp.C129_backslash",
    "Gyp.C129_stops",
    "Gyp.C129_command",
    "Gyp.C129_quoted_command",
    "Gyp.C129_written"
   ],
   "note": "The arguments are passed on if they are not empty and have no backslash together with a quote or blank (C129_arguments_partial); an empty argument is lost (C129_empty_argument) and a backslash before the closing quote joins two arguments (C129_backslash). A program name with a blank is searched with its quotes and not found (C129_quoted_command). The reader is the C runtime rule with doubled quotes, stated in Spec/MsvsUser.lean. Writing the XML and the host name are not modelled."
  },
  {
   "property": "C130",
   "status": "partial",
   "theorems": [
    "Gyp.C130_exclusive",
    "Gyp.C130_mac_status",
    "Gyp.C130_no_deadlock",
    "Gyp.C130_status_partial",
    "Gyp.C130_status_lost",
    "Gyp.C130_refused"
   ],
   "note": "Exclusion and freedom from deadlock hold for both tools, the status for the tool of macOS. The tool for AIX, Solaris and OS/400 drops the status of the command, so a failed link counts as successful (C130_status_lost), and fails instead of waiting if the lock is taken (C130_refused); its statuses are right only if all commands succeed and no lock is shared (C130_status_partial). The behaviour of fcntl locks is part of the model of the system; ends by signals are not modelled."
  },
  {
   "property": "C131",
   "status": "proved",
   "theorems": [
    "Gyp.C131_glibc",
    "Gyp.C131_written",
    "Gyp.C131_musl",
    "Gyp.C131_musl_one"
   ],
   "note": "Texts are ASCII and lines end with line feeds; asking the system for the text (confstr, ctypes, running the loader) is not modelled."
  }
 ]
}