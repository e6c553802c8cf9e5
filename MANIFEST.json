{
 "claims": [
  {
   "property": "C01",
   "status": "proved",
   "theorems": [
    "JFTP.C01_render_is_picture_effectful",
    "JFTP.C01_render_is_picture",
    "JFTP.C01_displayed_tree_exists_unique",
    "JFTP.C01_prettyPrint_is_picture",
    "JFTP.C01_characters",
    "JFTP.C01_text",
    "JFTP.C01_text_returned"
   ],
   "note": "C01_text: every text prettyPrint returns is the layout of the display of the tree it found, for arbitrary callbacks (they may throw). C01_render_is_picture_effectful: the same for the renderer in every lawful monad."
  },
  {
   "property": "C02",
   "status": "proved",
   "theorems": [
    "JFTP.C02_one_line_per_item",
    "JFTP.C02_line_feeds_more_lines",
    "JFTP.C02_text_lines",
    "JFTP.C02_text_lines_compact_off"
   ],
   "note": ""
  },
  {
   "property": "C03",
   "status": "proved",
   "theorems": [
    "JFTP.C03_decode_roundtrip",
    "JFTP.C03_picture_injective",
    "JFTP.C03_condition_needed",
    "JFTP.C03_line_feeds_ambiguous",
    "JFTP.C03_text_decodes",
    "JFTP.C03_same_text_same_display"
   ],
   "note": "Holds under the stated condition on the four symbols; C03_condition_needed shows it cannot be dropped; C03_line_feeds_ambiguous shows the same for line feeds in names."
  },
  {
   "property": "C04",
   "status": "proved",
   "theorems": [
    "JFTP.C04_lines_drawn",
    "JFTP.C04_label_column",
    "JFTP.C04_text_aligned",
    "JFTP.C04_text_columns"
   ],
   "note": ""
  },
  {
   "property": "C05",
   "status": "proved",
   "theorems": [
    "JFTP.C05_treeFormat_create",
    "JFTP.C05_constructed_ok"
   ],
   "note": ""
  },
  {
   "property": "C06",
   "status": "proved",
   "theorems": [
    "JFTP.C06_text",
    "JFTP.C06_display_set_to_depth",
    "JFTP.C06_exact_display_set",
    "JFTP.C06_top_never_filtered",
    "JFTP.C06_printed_paths"
   ],
   "note": ""
  },
  {
   "property": "C07",
   "status": "proved",
   "theorems": [
    "JFTP.C07_noninterference",
    "JFTP.C07_agreement_on_displayed",
    "JFTP.C07_below_depth_irrelevant"
   ],
   "note": ""
  },
  {
   "property": "C08",
   "status": "proved",
   "theorems": [
    "JFTP.C08_string_order",
    "JFTP.C08_children_sorted",
    "JFTP.C08_children_strictly_sorted",
    "JFTP.C08_comparators",
    "JFTP.C08_text"
   ],
   "note": "For comparators that obey the Comparator contract (TimSort may throw on others); C32 proves the contract for all built-in ones."
  },
  {
   "property": "C09",
   "status": "proved",
   "theorems": [
    "JFTP.C09_listing_order_irrelevant",
    "JFTP.C09_same_exception"
   ],
   "note": ""
  },
  {
   "property": "C10",
   "status": "proved",
   "theorems": [
    "JFTP.C10_child_limit",
    "JFTP.C10_limit_exists",
    "JFTP.C10_text"
   ],
   "note": ""
  },
  {
   "property": "C11",
   "status": "proved",
   "theorems": [
    "JFTP.C11_negative_limit_unlimited"
   ],
   "note": ""
  },
  {
   "property": "C12",
   "status": "proved",
   "theorems": [
    "JFTP.C12_growing_limits_append",
    "JFTP.C12_raising_one_limit",
    "JFTP.C12_smaller_limits_narrow",
    "JFTP.C12_text"
   ],
   "note": ""
  },
  {
   "property": "C13",
   "status": "proved",
   "theorems": [
    "JFTP.C13_depth_bound",
    "JFTP.C13_cut_directory",
    "JFTP.C13_marker_line",
    "JFTP.C13_text",
    "JFTP.C13_never_opened"
   ],
   "note": ""
  },
  {
   "property": "C14",
   "status": "proved",
   "theorems": [
    "JFTP.C14_smaller_depth_truncates",
    "JFTP.C14_text"
   ],
   "note": ""
  },
  {
   "property": "C15",
   "status": "proved",
   "theorems": [
    "JFTP.C15_negative_depth_prints_only_top",
    "JFTP.C15_negative_depth_text",
    "JFTP.C15_documented_claim_false"
   ],
   "note": "The documented claim is false of the code: C15_documented_claim_false. Proved instead, for every negative depth: only the printed directory and '...' appear."
  },
  {
   "property": "C16",
   "status": "proved",
   "theorems": [
    "JFTP.C16_accesses",
    "JFTP.C16_height",
    "JFTP.C16_only_directories_have_content",
    "JFTP.C16_links_are_leaves"
   ],
   "note": "Termination is by construction: the model of the scanner is a total function in an arbitrary monad, whose recursion is bounded by maxDepth. C16_accesses bounds the accesses for arbitrary (also state-changing) file systems."
  },
  {
   "property": "C17",
   "status": "proved",
   "theorems": [
    "JFTP.C17_under_changes",
    "JFTP.C17_tree_of_possible_answers"
   ],
   "note": ""
  },
  {
   "property": "C18",
   "status": "proved",
   "theorems": [
    "JFTP.C18_success_means_no_failure",
    "JFTP.C18_failure_throws",
    "JFTP.C18_scan_only_throws_for_failures",
    "JFTP.C18_kind_of_exception",
    "JFTP.C18_iteration_failure_escapes"
   ],
   "note": "True for opening directories and reading attributes. The claim is false for failures while iterating an opened directory: C18_iteration_failure_escapes."
  },
  {
   "property": "C19",
   "status": "proved",
   "theorems": [
    "JFTP.C19_never_marked",
    "JFTP.C19_dangling_link_throws",
    "JFTP.C19_documented_claim_false"
   ],
   "note": "The documented claim is false of the code: C19_documented_claim_false, C19_never_marked, C19_dangling_link_throws."
  },
  {
   "property": "C20",
   "status": "proved",
   "theorems": [
    "JFTP.C20_mark",
    "JFTP.C20_file_line",
    "JFTP.C20_text",
    "JFTP.C20_attributes_of_displayed"
   ],
   "note": ""
  },
  {
   "property": "C21",
   "status": "proved",
   "theorems": [
    "JFTP.C21_root_never_printed",
    "JFTP.C21_null_pointer",
    "JFTP.C21_documented_claim_false"
   ],
   "note": "The claim is false of the code for the root directory: C21_root_never_printed (all options and callbacks), C21_null_pointer."
  },
  {
   "property": "C22",
   "status": "proved",
   "theorems": [
    "JFTP.C22_chain_iff",
    "JFTP.C22_lines_are_maximal_chains",
    "JFTP.C22_shows_chain",
    "JFTP.C22_text"
   ],
   "note": ""
  },
  {
   "property": "C23",
   "status": "proved",
   "theorems": [
    "JFTP.C23_names_and_nesting_recovered",
    "JFTP.C23_compact_injective",
    "JFTP.C23_ellipsis_ambiguous",
    "JFTP.C23_text"
   ],
   "note": "Recovery needs that '...' lines cannot be confused with a file named '...': C23_ellipsis_ambiguous shows the exact ambiguity."
  },
  {
   "property": "C24",
   "status": "proved",
   "theorems": [
    "JFTP.C24_compact_off_single",
    "JFTP.C24_no_chain_same",
    "JFTP.C24_text_off",
    "JFTP.C24_text_same"
   ],
   "note": ""
  },
  {
   "property": "C25",
   "status": "proved",
   "theorems": [
    "JFTP.C25_extension_at_end",
    "JFTP.C25_text"
   ],
   "note": ""
  },
  {
   "property": "C26",
   "status": "proved",
   "theorems": [
    "JFTP.C26_extension_ends_chain",
    "JFTP.C26_child_on_own_line",
    "JFTP.C26_text"
   ],
   "note": ""
  },
  {
   "property": "C27",
   "status": "proved",
   "theorems": [
    "JFTP.C27_extension_calls",
    "JFTP.C27_display_order",
    "JFTP.C27_text"
   ],
   "note": ""
  },
  {
   "property": "C28",
   "status": "proved",
   "theorems": [
    "JFTP.C28_first_nonnull",
    "JFTP.C28_all_null",
    "JFTP.C28_matching_rules",
    "JFTP.C28_independent_of_later_calls",
    "JFTP.C28_calls_append"
   ],
   "note": ""
  },
  {
   "property": "C29",
   "status": "proved",
   "theorems": [
    "JFTP.C29_exact",
    "JFTP.C29_first_match_partial",
    "JFTP.C29_default_ignored",
    "JFTP.C29_unlimited_rule_ignored",
    "JFTP.C29_documented_claim_false"
   ],
   "note": "The documented claim is false of the code: C29_documented_claim_false. C29_exact says what the code computes for all rule lists; the theorem with suffix _partial is the part of the documentation that holds."
  },
  {
   "property": "C30",
   "status": "proved",
   "theorems": [
    "JFTP.C30_independent_partial",
    "JFTP.C30_follows_setDefault",
    "JFTP.C30_claim_false"
   ],
   "note": "The claim is false of the code: C30_claim_false, C30_follows_setDefault (all values). The theorem with suffix _partial is the part that holds: everything except a later setDefault on a builder without rules."
  },
  {
   "property": "C31",
   "status": "proved",
   "theorems": [
    "JFTP.C31_built_comparator",
    "JFTP.C31_first",
    "JFTP.C31_last"
   ],
   "note": ""
  },
  {
   "property": "C32",
   "status": "proved",
   "theorems": [
    "JFTP.C32_lawful",
    "JFTP.C32_combinations",
    "JFTP.C32_contract"
   ],
   "note": ""
  },
  {
   "property": "C33",
   "status": "proved",
   "theorems": [
    "JFTP.C33_directories_first",
    "JFTP.C33_directories_last"
   ],
   "note": ""
  },
  {
   "property": "C34",
   "status": "proved",
   "theorems": [
    "JFTP.C34_by_size",
    "JFTP.C34_directories_before_nonempty_files",
    "JFTP.C34_documented_claim_false"
   ],
   "note": "The documented remark 'directories before regular files' is false of the code for empty files: C34_documented_claim_false."
  },
  {
   "property": "C35",
   "status": "proved",
   "theorems": [
    "JFTP.C35_directories_first",
    "JFTP.C35_no_extension",
    "JFTP.C35_extensions",
    "JFTP.C35_dots_only",
    "JFTP.C35_all_names"
   ],
   "note": ""
  },
  {
   "property": "C36",
   "status": "proved",
   "theorems": [
    "JFTP.C36_directory",
    "JFTP.C36_file",
    "JFTP.C36_custom_rules_short_circuit",
    "JFTP.C36_never_null",
    "JFTP.C36_default",
    "JFTP.C36_default_ok",
    "JFTP.C36_default_emojis_clean"
   ],
   "note": ""
  },
  {
   "property": "C37",
   "status": "proved",
   "theorems": [
    "JFTP.C37_build_ok_iff",
    "JFTP.C37_only_illegal_state",
    "JFTP.C37_names_ignore_case",
    "JFTP.C37_case_variant_honoured",
    "JFTP.C37_second_spelling_throws",
    "JFTP.C37_readme_throws",
    "JFTP.C37_default_builds"
   ],
   "note": "The general claim is false of the code: C37_second_spelling_throws, C37_readme_throws; C37_build_ok_iff is the exact condition."
  },
  {
   "property": "C38",
   "status": "proved",
   "theorems": [
    "JFTP.C38_candidates",
    "JFTP.C38_ith",
    "JFTP.C38_no_candidates"
   ],
   "note": ""
  },
  {
   "property": "C39",
   "status": "proved",
   "theorems": [
    "JFTP.C39_immutable_partial",
    "JFTP.C39_late_rule_applies",
    "JFTP.C39_claim_false"
   ],
   "note": "The claim is false of the code: C39_claim_false, C39_late_rule_applies. The theorem with suffix _partial is the part that holds (all other setters)."
  },
  {
   "property": "C40",
   "status": "proved",
   "theorems": [
    "JFTP.C40_emoji_in_front",
    "JFTP.C40_text"
   ],
   "note": ""
  },
  {
   "property": "C41",
   "status": "proved",
   "theorems": [
    "JFTP.C41_branch",
    "JFTP.C41_empty_rejected",
    "JFTP.C41_truth_tables",
    "JFTP.C41_short_circuit",
    "JFTP.C41_none_not_any",
    "JFTP.C41_exceptions"
   ],
   "note": ""
  },
  {
   "property": "C42",
   "status": "proved",
   "theorems": [
    "JFTP.C42_names",
    "JFTP.C42_root",
    "JFTP.C42_glob"
   ],
   "note": ""
  },
  {
   "property": "C43",
   "status": "proved",
   "theorems": [
    "JFTP.C43_parent",
    "JFTP.C43_no_parent",
    "JFTP.C43_any_ancestor",
    "JFTP.C43_nearest_first",
    "JFTP.C43_not_itself"
   ],
   "note": ""
  },
  {
   "property": "C44",
   "status": "proved",
   "theorems": [
    "JFTP.C44_child",
    "JFTP.C44_descendant",
    "JFTP.C44_sibling",
    "JFTP.C44_no_parent",
    "JFTP.C44_not_directory",
    "JFTP.C44_not_itself",
    "JFTP.C44_failures",
    "JFTP.C44_child_throwing",
    "JFTP.C44_sibling_throwing",
    "JFTP.C44_throwing_matcher"
   ],
   "note": ""
  },
  {
   "property": "C45",
   "status": "proved",
   "theorems": [
    "JFTP.C45_exact",
    "JFTP.C45_documented_partial",
    "JFTP.C45_climbing_differs",
    "JFTP.C45_witness"
   ],
   "note": "The documented claim is false of the code for relative paths that climb: C45_climbing_differs, C45_witness. C45_exact says what is tested; the theorem with suffix _partial is the documented claim for all other paths."
  },
  {
   "property": "C46",
   "status": "proved",
   "theorems": [
    "JFTP.C46_way",
    "JFTP.C46_below",
    "JFTP.C46_leads_there"
   ],
   "note": ""
  },
  {
   "property": "C47",
   "status": "proved",
   "theorems": [
    "JFTP.C47_depends_on_target",
    "JFTP.C47_absolute_form",
    "JFTP.C47_insert",
    "JFTP.C47_trailing_slash",
    "JFTP.C47_double_slash",
    "JFTP.C47_string"
   ],
   "note": ""
  },
  {
   "property": "C48",
   "status": "proved",
   "theorems": [
    "JFTP.C48_printer",
    "JFTP.C48_build_works",
    "JFTP.C48_format_is_kept",
    "JFTP.C48_isolated",
    "JFTP.C48_own_object"
   ],
   "note": ""
  },
  {
   "property": "C49",
   "status": "proved",
   "theorems": [
    "JFTP.C49_last_call_wins",
    "JFTP.C49_independent",
    "JFTP.C49_shorthands"
   ],
   "note": ""
  },
  {
   "property": "C50",
   "status": "proved",
   "theorems": [
    "JFTP.C50_meaning"
   ],
   "note": ""
  },
  {
   "property": "C51",
   "status": "proved",
   "theorems": [
    "JFTP.C51_maps_iff"
   ],
   "note": ""
  },
  {
   "property": "C52",
   "status": "proved",
   "theorems": [
    "JFTP.C52_lookup"
   ],
   "note": ""
  },
  {
   "property": "C53",
   "status": "proved",
   "theorems": [
    "JFTP.C53_format",
    "JFTP.C53_exact",
    "JFTP.C53_prints",
    "JFTP.C53_code_zero",
    "JFTP.C53_false",
    "JFTP.C53_witness"
   ],
   "note": "The claim is false of the code when the text contains '%': C53_false, C53_witness. C53_prints: true otherwise. C53_format gives output and exit code for every string, C53_exact: unchanged if and only if there is no '%'."
  },
  {
   "property": "C54",
   "status": "proved",
   "theorems": [
    "JFTP.C54_not_found",
    "JFTP.C54_failed",
    "JFTP.C54_codes",
    "JFTP.C54_output_on_failure",
    "JFTP.C54_false",
    "JFTP.C54_witness"
   ],
   "note": "The claim is false of the code when the tree contains a format specifier: C54_false, C54_witness; true in all other cases."
  },
  {
   "property": "C55",
   "status": "proved",
   "theorems": [
    "JFTP.C55_adds_messages",
    "JFTP.C55_false",
    "JFTP.C55_witness"
   ],
   "note": "The claim is false of the code when the path of a missing fallback file contains a format specifier: C55_false, C55_witness; true otherwise."
  },
  {
   "property": "C56",
   "status": "proved",
   "theorems": [
    "JFTP.C56_dump",
    "JFTP.C56_null"
   ],
   "note": ""
  },
  {
   "property": "C57",
   "status": "proved",
   "theorems": [
    "JFTP.C57_stack",
    "JFTP.C57_pushes_and_pops",
    "JFTP.C57_equals"
   ],
   "note": ""
  },
  {
   "property": "C58",
   "status": "proved",
   "theorems": [
    "JFTP.C58_every_path_once",
    "JFTP.C58_text"
   ],
   "note": ""
  },
  {
   "property": "C59",
   "status": "proved",
   "theorems": [
    "JFTP.C59_isFile",
    "JFTP.C59_kinds",
    "JFTP.C59_exclusive",
    "JFTP.C59_filter_regular_files",
    "JFTP.C59_filter_directories_by_link"
   ],
   "note": ""
  },
  {
   "property": "C60",
   "status": "proved",
   "theorems": [
    "JFTP.C60_star",
    "JFTP.C60_rejected",
    "JFTP.C60_absolute",
    "JFTP.C60_relative"
   ],
   "note": ""
  },
  {
   "property": "C61",
   "status": "proved",
   "theorems": [
    "JFTP.C61_children"
   ],
   "note": ""
  },
  {
   "property": "C62",
   "status": "proved",
   "theorems": [
    "JFTP.C62_no_overflow"
   ],
   "note": ""
  },
  {
   "property": "C63",
   "status": "proved",
   "theorems": [
    "JFTP.C63_bound",
    "JFTP.C63_tight"
   ],
   "note": ""
  },
  {
   "property": "C64",
   "status": "proved",
   "theorems": [
    "JFTP.C64_prune",
    "JFTP.C64_text",
    "JFTP.C64_limit_needed"
   ],
   "note": ""
  },
  {
   "property": "C65",
   "status": "proved",
   "theorems": [
    "JFTP.C65_record",
    "JFTP.C65_once"
   ],
   "note": ""
  },
  {
   "property": "C66",
   "status": "proved",
   "theorems": [
    "JFTP.C66_emoji_per_line"
   ],
   "note": ""
  },
  {
   "property": "C67",
   "status": "proved",
   "theorems": [
    "JFTP.C67_alphabet",
    "JFTP.C67_classic_ascii",
    "JFTP.C67_builtin_symbols",
    "JFTP.C67_ascii_claim_false"
   ],
   "note": "The ASCII claim is false of the code: C67_ascii_claim_false; C67_classic_ascii is the exact characterisation, C67_alphabet the general statement."
  },
  {
   "property": "C68",
   "status": "proved",
   "theorems": [
    "JFTP.C68_last_extension",
    "JFTP.C68_no_extension",
    "JFTP.C68_no_exception",
    "JFTP.C68_default_names",
    "JFTP.C68_default_extensions"
   ],
   "note": ""
  },
  {
   "property": "C69",
   "status": "proved",
   "theorems": [
    "JFTP.C69_streams_closed",
    "JFTP.C69_matchers_close",
    "JFTP.C69_nested_counts",
    "JFTP.C69_closing_invisible",
    "JFTP.C69_matchers_invisible",
    "JFTP.C69_close_failure"
   ],
   "note": ""
  },
  {
   "property": "C70",
   "status": "proved",
   "theorems": [
    "JFTP.C70_conforming_usable_iff",
    "JFTP.C70_claim_false",
    "JFTP.C70_reverse_false",
    "JFTP.C70_write_read",
    "JFTP.C70_write_conforms",
    "JFTP.C70_run"
   ],
   "note": "The claim is false in both directions: C70_claim_false, C70_reverse_false; C70_conforming_usable_iff and C70_write_conforms are the exact boundaries. The binding (Jackson) is modelled for documents whose values have the declared types."
  },
  {
   "property": "C71",
   "status": "proved",
   "theorems": [
    "JFTP.C71_small_sort",
    "JFTP.C71_jdk_sort",
    "JFTP.C71_lawful",
    "JFTP.C71_any_comparator",
    "JFTP.C71_exceptions",
    "JFTP.C71_siblings_only",
    "JFTP.C71_fixed_disk",
    "JFTP.C71_built_fixed",
    "JFTP.C71_sort_fixed",
    "JFTP.C71_complaint_happens"
   ],
   "note": "The whole sort of the JDK (java.util.TimSort) is modelled and proved for lists of any length. The model of TimSort is written from knowledge of the JDK, whose sources were not available for comparison. C71_complaint_happens shows that the IllegalArgumentException is real."
  },
  {
   "property": "C72",
   "status": "proved",
   "theorems": [
    "JFTP.C72_text",
    "JFTP.C72_text_any_comparator",
    "JFTP.C72_lines",
    "JFTP.C72_functions"
   ],
   "note": "In every state type, i.e. for an adversarial environment."
  },
  {
   "property": "C73",
   "status": "proved",
   "theorems": [
    "JFTP.C73_same_results_any_comparator",
    "JFTP.C73_same_results_live",
    "JFTP.C73_any_interleaving_any_comparator",
    "JFTP.C73_library_orders",
    "JFTP.C73_same_results",
    "JFTP.C73_any_interleaving",
    "JFTP.C73_no_waiting",
    "JFTP.C73_terminates",
    "JFTP.C73_library_matchers",
    "JFTP.C73_library_builders"
   ],
   "note": "Each file-system access and each step of a callback is atomic; callbacks may consist of any finite number of steps. The options object is not modified while calls run, and was safely published (the code has no locks or volatile fields). A listing is a finite list. `C73_same_results_any_comparator` and `C73_any_interleaving_any_comparator` are about comparators called step by step in the JDK's sort; the other theorems have comparators that are functions."
  },
  {
   "property": "C74",
   "status": "proved",
   "theorems": [
    "JFTP.C74_only_matching",
    "JFTP.C74_files",
    "JFTP.C74_directories",
    "JFTP.C74_no_empty_directory",
    "JFTP.C74_printed"
   ],
   "note": "File system that does not change during the call. The walk of Files.walk stops after 2^31-1 levels, hence the hypothesis on levels for directories. The call has to return (C44 and C18 say when it throws: e.g. if a directory anywhere below cannot be listed)."
  },
  {
   "property": "C75",
   "status": "proved",
   "theorems": [
    "JFTP.C75_unchanged",
    "JFTP.C75_text",
    "JFTP.C75_depth_and_filter",
    "JFTP.C75_fixed_at_start",
    "JFTP.C75_one_thread_extension",
    "JFTP.C75_race"
   ],
   "note": "Reads of fields are atomic and see some value that was set (sequentially consistent; the Java memory model allows stale values, which are covered since the environment is arbitrary and Sometime does not fix an order). C75_race shows that the documented lack of thread safety is real."
  },
  {
   "property": "C76",
   "status": "proved",
   "theorems": [
    "JFTP.C76_causes",
    "JFTP.C76_causes_any_comparator",
    "JFTP.C76_kinds",
    "JFTP.C76_no_exception",
    "JFTP.C76_matchers",
    "JFTP.C76_builders"
   ],
   "note": "For static file systems, file systems that change (WorldM) and interference by other threads (Res): the class Outcomes covers all three. A pure comparator in C76_causes; any comparator in C76_causes_any_comparator. Errors of the virtual machine (stack overflow, out of memory) are not modelled."
  },
  {
   "property": "C77",
   "status": "proved",
   "theorems": [
    "JFTP.C77_setter",
    "JFTP.C77_options_history",
    "JFTP.C77_builders",
    "JFTP.C77_builder_history",
    "JFTP.C77_null_extension",
    "JFTP.C77_customize",
    "JFTP.C77_history",
    "JFTP.C77_treeFormat",
    "JFTP.C77_combine",
    "JFTP.C77_factories",
    "JFTP.C77_print_null"
   ],
   "note": "A customizer is any finite sequence of calls on options, builders and printers followed by a result; nested customizeOptions calls inside a customizer are not modelled. C77_print_null holds in every monad in which an exception ends the computation (hthrow)."
  },
  {
   "property": "C78",
   "status": "proved",
   "theorems": [
    "JFTP.C78_characters",
    "JFTP.C78_name",
    "JFTP.C78_absolute",
    "JFTP.C78_relative",
    "JFTP.C78_star"
   ],
   "note": "The JDK's translation of globs to regular expressions and the part of java.util.regex it uses are modelled from knowledge of JDK 21; its sources were not available for comparison. Classes that the regular expression does not end where the glob does ([], [!], ranges that end in [ or backslash) are left to a parameter and excluded from the well-formed patterns. Brackets may contain any Unicode characters; which ranges with characters beyond U+FFFF are possible is said by C114. Unix paths."
  },
  {
   "property": "C79",
   "status": "proved",
   "theorems": [
    "JFTP.C79_literal",
    "JFTP.C79_escaped",
    "JFTP.C79_suffix",
    "JFTP.C79_extension",
    "JFTP.C79_prefix",
    "JFTP.C79_contains",
    "JFTP.C79_double_star",
    "JFTP.C79_below",
    "JFTP.C79_anywhere",
    "JFTP.C79_group"
   ],
   "note": "SlashFree: the last name of the path has no slash, which no Unix name has. C79_double_star and C79_below state the exception for line breaks exactly."
  },
  {
   "property": "C80",
   "status": "proved",
   "theorems": [
    "JFTP.C80_name_never",
    "JFTP.C80_flat_listing",
    "JFTP.C80_options_file"
   ],
   "note": "ListsNames: directories list names that are not empty, have no slash and are neither . nor .. (contract of DirectoryStream)."
  },
  {
   "property": "C81",
   "status": "proved",
   "theorems": [
    "JFTP.C81_accepted_iff",
    "JFTP.C81_rejected",
    "JFTP.C81_reversed_range"
   ],
   "note": "Exact apart from patterns in which the text between brackets is empty or only !, contains a surrogate without partner, has a range that ends in [ or a backslash, or has a character beyond U+FFFF before a hyphen (Tame; for these see C114). The single rejections of C81_rejected and C81_reversed_range hold for these patterns, too."
  },
  {
   "property": "C82",
   "status": "proved",
   "theorems": [
    "JFTP.C82_only",
    "JFTP.C82_files",
    "JFTP.C82_directories",
    "JFTP.C82_printed"
   ],
   "note": "File system that does not change during the call. The walk of Files.walk stops after 2^31-1 levels, hence the hypothesis on levels for directories. The call has to return."
  },
  {
   "property": "C83",
   "status": "proved",
   "theorems": [
    "JFTP.C83_rename",
    "JFTP.C83_move",
    "JFTP.C83_default",
    "JFTP.C83_builtin",
    "JFTP.C83_disk"
   ],
   "note": "File systems that do not change during the call; comparators obey the Comparator contract and do not consider different entries equal. C83_disk is for concrete disks and directories without symbolic links in them (a link may point to something else after the move). Nothing is claimed about which exception is thrown when none of them is printed."
  },
  {
   "property": "C84",
   "status": "proved",
   "theorems": [
    "JFTP.C84_entry",
    "JFTP.C84_line"
   ],
   "note": "File systems that do not change during a call; the comparator obeys the Comparator contract and does not consider different entries of a directory equal (true for every result of the builder, C32). The emoji and extension of the new file have to be computed without exception. With a child limit another entry may disappear into the skipped line; with compact directories a merged chain may be split, for these C84_entry describes the tree. Read backwards: removing a file."
  },
  {
   "property": "C85",
   "status": "proved",
   "theorems": [
    "JFTP.C85_mirror",
    "JFTP.C85_alphabetical",
    "JFTP.C85_involutive"
   ],
   "note": "File systems that do not change during a call. If the comparator considers entries equal, those keep their alphabetical order in both directions (C08); with a child limit other children are shown, so the condition on limits is needed."
  },
  {
   "property": "C86",
   "status": "proved",
   "theorems": [
    "JFTP.C86_ends",
    "JFTP.C86_output",
    "JFTP.C86_otherwise",
    "JFTP.C86_unique",
    "JFTP.C86_documented_globs"
   ],
   "note": "The options document is the parsed one: YAML parsing by Jackson is outside the model. The file system does not change during the run, lists children under real names, and reads of attributes are as modelled. Texts that contain percent signs are printed as C53 says. The sets described by globs are a parameter, except in C86_documented_globs, where they are those of C78."
  },
  {
   "property": "C87",
   "status": "proved",
   "theorems": [
    "JFTP.C87_prints",
    "JFTP.C87_malformed_glob"
   ],
   "note": "Built from C70 (schema and binding), C86 (document to text), C78 and C81 (globs), whose assumptions it shares: the modelled part of Jackson's binding, the model of the JDK's globs, a file system that does not change. Texts with percent signs are printed as C53 says."
  },
  {
   "property": "C88",
   "status": "proved",
   "theorems": [
    "JFTP.C88_siblings_only",
    "JFTP.C88_returns_iff",
    "JFTP.C88_same_labels"
   ],
   "note": "File systems that do not change during a call. The model's sort permutes for every comparator; the contract is assumed because the JDK's sort may throw otherwise (C71). With a child limit the order decides which children are shown, so the condition on limits is needed."
  },
  {
   "property": "C89",
   "status": "proved",
   "theorems": [
    "JFTP.C89_labels_first",
    "JFTP.C89_one_tree",
    "JFTP.C89_same_lines",
    "JFTP.C89_same_length",
    "JFTP.C89_translate"
   ],
   "note": "C89_labels_first holds in every lawful monad, i.e. also for callbacks and file systems with side effects. The translation needs names, emojis and extensions without line feeds and branch symbols that differ from the other two (C03)."
  },
  {
   "property": "C90",
   "status": "proved",
   "theorems": [
    "JFTP.C90_entry",
    "JFTP.C90_block",
    "JFTP.C90_returns_iff",
    "JFTP.C90_lines"
   ],
   "note": "As in C84, `Inserted` speaks about the entry tree and `outline` about labels with depths. `bump` only changes the numbers in depth markers, which are not displayed. C90_block assumes that the new entry prints on its own with the remaining depth; C90_returns_iff says that otherwise the whole does not print. C90_lines speaks about the lines of the text themselves and has no restriction on compact directories, filters or limits; `IsBlock` (Spec/Change.lean) says what a block is."
  },
  {
   "property": "C91",
   "status": "proved",
   "theorems": [
    "JFTP.C91_entry",
    "JFTP.C91_unnoticed",
    "JFTP.C91_block",
    "JFTP.C91_returns_iff",
    "JFTP.C91_lines"
   ],
   "note": "The comparator is the same function of the paths in both file systems (BY_FILE_SIZE looks at sizes, so a size change is another comparator; see C88 for that case). C91_block assumes that the changed entry prints on its own; C91_returns_iff says that otherwise the whole does not print. C91_lines assumes that both calls return a text and needs neither of the restrictions."
  },
  {
   "property": "C92",
   "status": "proved",
   "theorems": [
    "JFTP.C92_version"
   ],
   "note": "The manifest is modelled after parsing (java.util.jar.Manifest): its main attributes, or a failure. What picocli does with the lines (printing them, exit code) is not modelled."
  },
  {
   "property": "C93",
   "status": "proved",
   "theorems": [
    "JFTP.C93_basic_program",
    "JFTP.C93_format_program",
    "JFTP.C93_maxDepth_program",
    "JFTP.C93_compact_program",
    "JFTP.C93_childLimitStatic_program",
    "JFTP.C93_sorting_program",
    "JFTP.C93_filtering",
    "JFTP.C93_closed_set",
    "JFTP.C93_closed_marks",
    "JFTP.C93_closed_text",
    "JFTP.C93_comments",
    "JFTP.C93_comments_built",
    "JFTP.C93_filtering_program",
    "JFTP.C93_childLimit_program",
    "JFTP.C93_lineExtension_program"
   ],
   "note": "(1) and (2) are proved for the recipe added to any options (C93_filtering needs that no child limit is set) and for the programs themselves; the way a file system has changed in between is not considered. (3) assumes that the places have no glob characters and no slash inside a name and that the printed path's own name has no slash. Console output of the programs is not modelled."
  },
  {
   "property": "C94",
   "status": "proved",
   "theorems": [
    "JFTP.C94_differences",
    "JFTP.C94_shown",
    "JFTP.C94_directory",
    "JFTP.C94_depth_marker",
    "JFTP.C94_emojis_program"
   ],
   "note": "The claim as the README states it is false; C94_differences and C94_depth_marker refute it for docx, readme and the depth marker in all cases, C94_shown and C94_directory prove the rest. C94_emojis_program says the same about the lines Emojis.java prints."
  },
  {
   "property": "C95",
   "status": "proved",
   "theorems": [
    "JFTP.C95_display_set",
    "JFTP.C95_position",
    "JFTP.C95_text"
   ],
   "note": "File systems that do not change during a call and contain every entry once (ProperFs). The comparator distinguishes siblings, which holds after every sort() (sort_distinguishes). C95_display_set contains C06 (no limit), C10, C11 and C13; C95_position gives the order as well."
  },
  {
   "property": "C96",
   "status": "proved",
   "theorems": [
    "JFTP.C96_relative",
    "JFTP.C96_absolute",
    "JFTP.C96_lengths",
    "JFTP.C96_between",
    "JFTP.C96_extension"
   ],
   "note": "The JDK's translation of globs into regular expressions is modelled (C78); the law follows from the documented meaning of the pieces. `*` alone is handled by the library itself (accepts everything) and excluded. Segments that contain ** next to other characters (a**) are not segments of this kind: ** crosses slashes there."
  },
  {
   "property": "C97",
   "status": "proved",
   "theorems": [
    "JFTP.C97_built",
    "JFTP.C97_picture",
    "JFTP.C97_entries"
   ],
   "note": "The file system does not change during the run, lists every entry once and has names without line breaks (globs treat these differently). C97_picture speaks about the printed lines, C97_entries about the order and the marker in every directory above level 20, C97_built about the options. Whether the walk of hasAnyDescendantMatching fails on an unreadable directory is part of the run: the statements are about runs that print. The matcher made in lines 92-98 is never used."
  },
  {
   "property": "C98",
   "status": "proved",
   "theorems": [
    "JFTP.C98_listed",
    "JFTP.C98_unreadable",
    "JFTP.C98_filter_protects",
    "JFTP.C98_saved",
    "JFTP.C98_zero"
   ],
   "note": "The claim of the documentation is refuted; C98_saved and C98_filter_protects say what is true instead. Accesses are those of the record of C65 (directory tests, listings, limits, filter calls); the file system does not change during the run. Reading of attributes done by the JDK inside a listing is not modelled."
  },
  {
   "property": "C99",
   "status": "proved",
   "theorems": [
    "JFTP.C99_never_throws",
    "JFTP.C99_glob",
    "JFTP.C99_extension",
    "JFTP.C99_documented_example"
   ],
   "note": "The claim of the documentation is refuted. File systems with several roots (Windows) are not modelled; there the code returns false, it does not throw either. The example of the documentation is read with / for the backslash (which its comment needs because */ would end it)."
  },
  {
   "property": "C100",
   "status": "proved",
   "theorems": [
    "JFTP.C100_one_page",
    "JFTP.C100_disk",
    "JFTP.C100_default"
   ],
   "note": "Callbacks answer as functions of the path and do not throw (C17, C56, C71 treat others); the order satisfies the contract of Comparator. Entries found twice in one listing are excluded (ProperFs). Trees are finite."
  },
  {
   "property": "C101",
   "status": "proved",
   "theorems": [
    "JFTP.C101_ends",
    "JFTP.C101_prints",
    "JFTP.C101_fails",
    "JFTP.C101_disk"
   ],
   "note": "YAML reading, bean validation messages and argument parsing are parameters of the machine (as in C50\u2013C54). Which message is written to the error stream on failure: C54. Names in directories are neither . nor .., and lower-casing leaves ASCII lower-case texts unchanged (every locale)."
  },
  {
   "property": "C102",
   "status": "proved",
   "theorems": [
    "JFTP.C102_makes",
    "JFTP.C102_right",
    "JFTP.C102_answers"
   ],
   "note": "Matchers that throw (own matchers that throw, unreadable directories) are covered by C102_right: an answer that is given is right. The meaning of relative paths that climb above the working directory is the one found in C45."
  },
  {
   "property": "C103",
   "status": "proved",
   "theorems": [
    "JFTP.C103_builds",
    "JFTP.C103_sound",
    "JFTP.C103_prints",
    "JFTP.C103_disk"
   ],
   "note": "Own comparators are assumed to be consistent (LawfulCmp), as Java requires. Sort rules with conditions are comparators that may throw, run in the JDK's sort (C71). C103_prints is the equivalence where everything can be read. That the default limit of a ChildLimits builder is ignored when there are rules (C29) is part of the settings. Null arguments: C77; changes of options after building a printer: C48, C75."
  },
  {
   "property": "C104",
   "status": "proved",
   "theorems": [
    "JFTP.C104_runs",
    "JFTP.C104_same",
    "JFTP.C104_sound",
    "JFTP.C104_prints",
    "JFTP.C104_disk"
   ],
   "note": "The file system stays the same during the program, as does the working directory. A call that throws ends the program; printing may throw without ending it. Own functions given as arguments do not depend on the program's objects. Objects read while they are being changed by another thread or by a callback: C75. Null arguments: C77."
  },
  {
   "property": "C105",
   "status": "proved",
   "theorems": [
    "JFTP.C105_basicUsage",
    "JFTP.C105_filtering",
    "JFTP.C105_sorting",
    "JFTP.C105_childLimitStatic",
    "JFTP.C105_childLimitDynamic",
    "JFTP.C105_compactDirectories",
    "JFTP.C105_fileTreeFormat",
    "JFTP.C105_maxDepth",
    "JFTP.C105_emojis",
    "JFTP.C105_lineExtension"
   ],
   "note": "For MaxDepth.java and Emojis.java the README's texts are refuted; the theorems give what they print instead. The directories are written down in Spec/Readme from the files of the repository; sizes of files do not matter. That the programs write the text with System.out.println is not modelled."
  },
  {
   "property": "C106",
   "status": "proved",
   "theorems": [
    "JFTP.C106_expected",
    "JFTP.C106_fresh",
    "JFTP.C106_iff"
   ],
   "note": "Refuted for fresh clones: C106_iff gives the exact condition. The content of the clone is written down in Spec/Clone. That the main class is not in a second place is part of the condition on what else is there (another directory that holds it would be shown). In a Turkish locale the emojis of LICENSE, CONTRIBUTING.md and SECURITY.md would be others; LowersAscii excludes it."
  },
  {
   "property": "C107",
   "status": "proved",
   "theorems": [
    "JFTP.C107_returns",
    "JFTP.C107_both",
    "JFTP.C107_iff",
    "JFTP.C107_plain",
    "JFTP.C107_turkish"
   ],
   "note": "Refuted for Turkish and Azeri default locales: C107_turkish gives the exact condition for ASCII names. What these locales do with letters outside ASCII is not modelled. The keys are in lower case in all locales (KeepsLowerAscii), as is the case for every locale of the JDK."
  },
  {
   "property": "C108",
   "status": "proved",
   "theorems": [
    "JFTP.C108_text",
    "JFTP.C108_tree",
    "JFTP.C108_nothing",
    "JFTP.C108_through",
    "JFTP.C108_through_builtin",
    "JFTP.C108_link",
    "JFTP.C108_meant",
    "JFTP.C108_disk",
    "JFTP.C108_dots",
    "JFTP.C108_dotdot",
    "JFTP.C108_dot"
   ],
   "note": "Refuted for paths with .. or . behind a link (C108_dotdot, C108_dot, in general C108_dots); C108_meant gives the paths for which it holds. Simplifications of the resolution: no limit on the number of links, no missing search permissions, no mounts."
  },
  {
   "property": "C109",
   "status": "proved",
   "theorems": [
    "JFTP.C109_recreate",
    "JFTP.C109_default",
    "JFTP.C109_marks_needed",
    "JFTP.C109_limit_needed",
    "JFTP.C109_compact"
   ],
   "note": "C109_compact is the claim with and without compact directories (the lines are expanded to names, grown); C109_recreate is the form without, where the copy is made from the lines themselves. The copy is given by a disk (made, grown) or by any file system that answers like it below the copied directory. C109_marks_needed and C109_limit_needed show that the conditions cannot be dropped."
  },
  {
   "property": "C110",
   "status": "proved",
   "theorems": [
    "JFTP.C110_snapshot",
    "JFTP.C110_disk",
    "JFTP.C110_marks_needed"
   ],
   "note": "Conditions as in C109 (names, default order, no child limit), here for two printings; compact directories are allowed. C110_marks_needed shows why marked files are excluded."
  },
  {
   "property": "C111",
   "status": "proved",
   "theorems": [
    "JFTP.C111_order",
    "JFTP.C111_common",
    "JFTP.C111_default"
   ],
   "note": "Comparators are functions of the two paths (a comparator by file size is another comparator when sizes change). The comparator has to distinguish the entries of a directory, which sort(...) guarantees by its alphabetical tie-break (C08)."
  },
  {
   "property": "C112",
   "status": "proved",
   "theorems": [
    "JFTP.C112_block",
    "JFTP.C112_middle",
    "JFTP.C112_last",
    "JFTP.C112_first"
   ],
   "note": "The displayed entries' paths are in the form in which the scanner meets them (absolute and normalized, hypothesis target cwd q = q). Compact directories are off: with them a new entry may split a merged line; with a child limit it may push an entry out (C14). The extensions and emojis are functions of the path, so that they do not depend on the file system."
  },
  {
   "property": "C113",
   "status": "proved",
   "theorems": [
    "JFTP.C113_closed",
    "JFTP.C113_wellformed",
    "JFTP.C113_builtin"
   ],
   "note": "Well-formedness is defined by Unicode scalar values and their UTF-16 form; the encoders of the JDK are not modelled. On Linux the JDK makes names well-formed when it decodes them."
  },
  {
   "property": "C114",
   "status": "proved",
   "theorems": [
    "JFTP.C114_members",
    "JFTP.C114_wide_start",
    "JFTP.C114_range"
   ],
   "note": "False as documented (ranges of characters beyond U+FFFF); the theorems give the exact boundary. Same model of the JDK's globs as C78: Globs compares the units of UTF-16, java.util.regex the characters."
  },
  {
   "property": "C115",
   "status": "proved",
   "theorems": [
    "JFTP.C115_absolute",
    "JFTP.C115_relative",
    "JFTP.C115_intended",
    "JFTP.C115_names_only",
    "JFTP.C115_examples"
   ],
   "note": "The documentation is refuted on its own examples, for every current directory; the exact sets are given for all paths (absolute form: without those that climb above the working directory, C45). Same model of the JDK's globs as C78; Unix paths."
  },
  {
   "property": "C116",
   "status": "proved",
   "theorems": [
    "JFTP.C116_builds",
    "JFTP.C116_texts",
    "JFTP.C116_move",
    "JFTP.C116_sorts",
    "JFTP.C116_disk"
   ],
   "note": "Same model of programs as C102/C103 (own functions and comparators do not throw; comparators obey the Comparator contract; the file system does not change). That a text is printed at both places or at neither is for disks on which everything can be read; equality of printed texts holds always. C116_disk is for directories without symbolic links. Excluded conditions: absolute, absoluteGlob, ancestor; conditions relative to another directory than the printed one; parent and sibling where the printed directory itself is asked."
  },
  {
   "property": "C117",
   "status": "proved",
   "theorems": [
    "JFTP.C117_limits",
    "JFTP.C117_limits_too",
    "JFTP.C117_sorted",
    "JFTP.C117_emojis",
    "JFTP.C117_documented",
    "JFTP.C117_documented_text",
    "JFTP.C117_printer"
   ],
   "note": "The documented code does not compile as written (newInstance() and ChildLimitBuilder.UNLIMITED do not exist, a string is given for a path, a parenthesis is missing); it is read as meant, see the head of Model/Javadoc.lean. Part (2): listed entries are children of the listed directory, each once. Parts (4): relative globs as in C78; names without slashes. Lower-casing leaves lower-case ASCII unchanged."
  },
  {
   "property": "C118",
   "status": "proved",
   "theorems": [
    "JFTP.C118_only_places",
    "JFTP.C118_not_beside_executable",
    "JFTP.C118_lookup_order",
    "JFTP.C118_same_document",
    "JFTP.C118_base",
    "JFTP.C118_usage",
    "JFTP.C118_example_valid",
    "JFTP.C118_example",
    "JFTP.C118_lookup_false"
   ],
   "note": "Documentation discrepancy: README.md:448-449 says 'beside the executable', ExternalOptionsReader.java:21-25 uses the working directory (C118_lookup_false is the witness). Working and home directory are absolute without dots; the directory printed is listed properly; for (4) names have no slash, lower-casing leaves lower-case ASCII and the end .java unchanged, and the printed lines have no percent sign (C53). The parsed document is the input: YAML syntax is not modelled."
  },
  {
   "property": "C119",
   "status": "proved",
   "theorems": [
    "JFTP.C119_rename",
    "JFTP.C119_default",
    "JFTP.C119_compact"
   ],
   "note": "Choices are by name and kind: a path and another path of the same name and kind are treated alike (structure Alike); the options may ask the file system for the kind, so both file systems have their own settings. The directories above the entry, and the entry under both names, are accepted by the filters, and its own limit is the same. C119_compact, with compact directories, also asks that the entry has an extension under both names or under none, since an extension ends the line."
  },
  {
   "property": "C120",
   "status": "proved",
   "theorems": [
    "JFTP.C120_no_loose_ends",
    "JFTP.C120_exactly_trees",
    "JFTP.C120_default_texts",
    "JFTP.C120_recognised"
   ],
   "note": "Drawings (Spec/Connect) are rows of symbols with labels, without any tree. The symbols of the rows are those of the tree format in use; if two of them are equal (C03_condition_needed), a text may be read as rows in several ways, and one of them is a drawing. Names in C120_default_texts are Unix file names without line break; C120_recognised says the same by reading the text back."
  },
  {
   "property": "C121",
   "status": "proved",
   "theorems": [
    "JFTP.C121_read",
    "JFTP.C121_disk"
   ],
   "note": "The reader (Spec/ReadPaths: readRow, readPaths, readText) is a program on the text alone. C121_read: the events of the scan (paths, none for markers) and the paths read are aligned one by one. C121_disk: the default options on disks with regular files and readable directories."
  },
  {
   "property": "C122",
   "status": "proved",
   "theorems": [
    "JFTP.C122_stack_suffices",
    "JFTP.C122_default",
    "JFTP.C122_grows"
   ],
   "note": "Frames (Model/Frames) is the scanner and the renderer with a counter of nested calls of their own methods; what these call in turn is not counted. C122_stack_suffices: equal to the ordinary printer as soon as the counter starts at 3 * maxDepth + 4. C122_grows: with less than 3 * min(n,d) + 2 the scan of n nested directories to depth d stops."
  },
  {
   "property": "C123",
   "status": "proved",
   "theorems": [
    "JFTP.C123_plain",
    "JFTP.C123_default",
    "JFTP.C123_without"
   ],
   "note": "Spec/Plain (bareLabel, plainText, dots) works on the text alone, with the decoder of C03. C123_plain: any emojis of one word; dots counts the markers of the scan (none in events). C123_default: the default emojis, no child limit. C123_without: the same text without emojis in a complete and an incomplete case."
  },
  {
   "property": "C124",
   "status": "proved",
   "theorems": [
    "JFTP.C124_size",
    "JFTP.C124_compact",
    "JFTP.C124_lines",
    "JFTP.C124_filters",
    "JFTP.C124_filters_compact_longer"
   ],
   "note": "charsOf (Spec/Size) counts over the scanned tree and knows nothing of merging. C124_size: equality without compact directories, at most that with them. C124_compact: both texts are returned (with compact directories the emoji mapping is asked less often, so one call may throw where the other does not). C124_filters: through C64_prune; C124_filters_compact_longer is the disk and the options for which a stricter filter lengthens the text."
  }
 ]
}