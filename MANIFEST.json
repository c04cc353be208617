{
 "claims": [
  {
   "property": "C01",
   "status": "proved",
   "theorems": [
    "Records.C01_empty_select_is_identity",
    "Records.C01_select_refines_script"
   ],
   "note": ""
  },
  {
   "property": "C02",
   "status": "proved",
   "theorems": [
    "Records.C02_count",
    "Records.C02_no_silent_loss"
   ],
   "note": ""
  },
  {
   "property": "C03",
   "status": "proved",
   "theorems": [
    "Records.C03_chain_eq_single",
    "Records.C03_merge_assoc",
    "Records.C03_merge_concatenates",
    "Records.C03_merge_empty",
    "Records.C03_merge_no_args"
   ],
   "note": ""
  },
  {
   "property": "C04",
   "status": "proved",
   "theorems": [
    "Records.C04_refuted_for_one_shot",
    "Records.C04_select_reusable",
    "Records.C04_truth"
   ],
   "note": ""
  },
  {
   "property": "C05",
   "status": "proved",
   "theorems": [
    "Records.C05_direct_call",
    "Records.C05_from_mapping_frame",
    "Records.C05_halfway"
   ],
   "note": ""
  },
  {
   "property": "C06",
   "status": "proved",
   "theorems": [
    "Records.C06_maybe_rename_exact",
    "Records.C06_refuted"
   ],
   "note": ""
  },
  {
   "property": "C07",
   "status": "proved",
   "theorems": [
    "Records.C07_merge_is_sequential",
    "Records.C07_refuted_in_general"
   ],
   "note": ""
  },
  {
   "property": "C08",
   "status": "proved",
   "theorems": [
    "Records.C08_clamp_idempotent",
    "Records.C08_clamp_init",
    "Records.C08_clamp_monotone",
    "Records.C08_clamp_nearest",
    "Records.C08_nan_passes_clamp"
   ],
   "note": ""
  },
  {
   "property": "C09",
   "status": "proved",
   "theorems": [
    "Records.C09_cyclic",
    "Records.C09_cyclic_degenerate"
   ],
   "note": ""
  },
  {
   "property": "C10",
   "status": "proved",
   "theorems": [
    "Records.C10_default",
    "Records.C10_within_iff",
    "Records.C10_within_init"
   ],
   "note": ""
  },
  {
   "property": "C11",
   "status": "proved",
   "theorems": [
    "Records.C11_assert",
    "Records.C11_condition_raises",
    "Records.C11_conditions"
   ],
   "note": ""
  },
  {
   "property": "C12",
   "status": "proved",
   "theorems": [
    "Records.C12_compose",
    "Records.C12_exception_stops",
    "Records.C12_laws"
   ],
   "note": ""
  },
  {
   "property": "C13",
   "status": "proved",
   "theorems": [
    "Records.C13_later",
    "Records.C13_map",
    "Records.C13_refuted"
   ],
   "note": ""
  },
  {
   "property": "C14",
   "status": "proved",
   "theorems": [
    "Records.C14_calls",
    "Records.C14_explicit",
    "Records.C14_minimal",
    "Records.C14_minimal_signed",
    "Records.C14_rejects",
    "Records.C14_roundtrip"
   ],
   "note": ""
  },
  {
   "property": "C15",
   "status": "proved",
   "theorems": [
    "Records.C15_calls",
    "Records.C15_whole"
   ],
   "note": ""
  },
  {
   "property": "C16",
   "status": "proved",
   "theorems": [
    "Records.C16_falsish",
    "Records.C16_field",
    "Records.C16_field_other",
    "Records.C16_from_integer"
   ],
   "note": ""
  },
  {
   "property": "C17",
   "status": "proved",
   "theorems": [
    "Records.C17_loose",
    "Records.C17_loose_empty_tuple",
    "Records.C17_not_unpackable",
    "Records.C17_only_concrete",
    "Records.C17_unconstrained",
    "Records.C17_unpack_each",
    "Records.C17_unpack_fixed",
    "Records.C17_unpack_map"
   ],
   "note": ""
  },
  {
   "property": "C18",
   "status": "proved",
   "theorems": [
    "Records.C18_literal_eval",
    "Records.C18_str_field"
   ],
   "note": ""
  },
  {
   "property": "C19",
   "status": "proved",
   "theorems": [
    "Records.C19_hollow",
    "Records.C19_hollow_leaf"
   ],
   "note": ""
  },
  {
   "property": "C20",
   "status": "proved",
   "theorems": [
    "Records.C20_match",
    "Records.C20_no_coercers"
   ],
   "note": ""
  },
  {
   "property": "C21",
   "status": "proved",
   "theorems": [
    "Records.C21_type_sound"
   ],
   "note": ""
  },
  {
   "property": "C22",
   "status": "proved",
   "theorems": [
    "Records.C22_exact",
    "Records.C22_no_coercers",
    "Records.C22_refuted"
   ],
   "note": ""
  },
  {
   "property": "C23",
   "status": "proved",
   "theorems": [
    "Records.C23_first_success",
    "Records.C23_last_failure"
   ],
   "note": ""
  },
  {
   "property": "C24",
   "status": "proved",
   "theorems": [
    "Records.C24_argument",
    "Records.C24_refuted"
   ],
   "note": ""
  },
  {
   "property": "C25",
   "status": "proved",
   "theorems": [
    "Records.C25_leaf",
    "Records.C25_union"
   ],
   "note": ""
  },
  {
   "property": "C26",
   "status": "proved",
   "theorems": [
    "Records.C26_after_bind",
    "Records.C26_container",
    "Records.C26_container_exact",
    "Records.C26_leaf",
    "Records.C26_unchecked",
    "Records.C26_uninterpretable",
    "Records.C26_union_members"
   ],
   "note": ""
  },
  {
   "property": "C27",
   "status": "proved",
   "theorems": [
    "Records.C27_strict_refines_check"
   ],
   "note": ""
  },
  {
   "property": "C28",
   "status": "proved",
   "theorems": [
    "Records.C28_builtin_tokens",
    "Records.C28_construct",
    "Records.C28_fill",
    "Records.C28_from_instance",
    "Records.C28_from_json",
    "Records.C28_from_mapping",
    "Records.C28_parse",
    "Records.C28_to_dict"
   ],
   "note": ""
  },
  {
   "property": "C29",
   "status": "proved",
   "theorems": [
    "Records.C29_attempt",
    "Records.C29_literal",
    "Records.C29_refuted_with_coercers",
    "Records.C29_sound"
   ],
   "note": ""
  },
  {
   "property": "C30",
   "status": "proved",
   "theorems": [
    "Records.C30_best",
    "Records.C30_stored"
   ],
   "note": ""
  },
  {
   "property": "C31",
   "status": "proved",
   "theorems": [
    "Records.C31_order"
   ],
   "note": ""
  },
  {
   "property": "C32",
   "status": "proved",
   "theorems": [
    "Records.C32_ambiguous"
   ],
   "note": ""
  },
  {
   "property": "C33",
   "status": "proved",
   "theorems": [
    "Records.C33_exact",
    "Records.C33_refuted",
    "Records.C33_validators"
   ],
   "note": ""
  },
  {
   "property": "C34",
   "status": "proved",
   "theorems": [
    "Records.C34_elements",
    "Records.C34_total"
   ],
   "note": ""
  },
  {
   "property": "C35",
   "status": "proved",
   "theorems": [
    "Records.C35_tuple"
   ],
   "note": ""
  },
  {
   "property": "C36",
   "status": "proved",
   "theorems": [
    "Records.C36_mapping"
   ],
   "note": ""
  },
  {
   "property": "C37",
   "status": "proved",
   "theorems": [
    "Records.C37_rebuild"
   ],
   "note": ""
  },
  {
   "property": "C38",
   "status": "proved",
   "theorems": [
    "Records.C38_conforms"
   ],
   "note": ""
  },
  {
   "property": "C39",
   "status": "proved",
   "theorems": [
    "Records.C39_decides"
   ],
   "note": ""
  },
  {
   "property": "C40",
   "status": "proved",
   "theorems": [
    "Records.C40_checked",
    "Records.C40_checked_mapping",
    "Records.C40_hollow_parts",
    "Records.C40_refuted"
   ],
   "note": ""
  },
  {
   "property": "C41",
   "status": "proved",
   "theorems": [
    "Records.C41_exact",
    "Records.C41_refuted"
   ],
   "note": ""
  },
  {
   "property": "C42",
   "status": "proved",
   "theorems": [
    "Records.C42_accepts",
    "Records.C42_aliases",
    "Records.C42_total"
   ],
   "note": ""
  },
  {
   "property": "C43",
   "status": "proved",
   "theorems": [
    "Records.C43_declaration_order",
    "Records.C43_field_order",
    "Records.C43_partition",
    "Records.C43_program"
   ],
   "note": ""
  },
  {
   "property": "C44",
   "status": "proved",
   "theorems": [
    "Records.C44_collision",
    "Records.C44_creatable_iff",
    "Records.C44_diamond",
    "Records.C44_program_diamond",
    "Records.C44_value_error_iff"
   ],
   "note": ""
  },
  {
   "property": "C45",
   "status": "proved",
   "theorems": [
    "Records.C45_inherited_field",
    "Records.C45_options",
    "Records.C45_own_field"
   ],
   "note": ""
  },
  {
   "property": "C46",
   "status": "proved",
   "theorems": [
    "Records.C46_unary_default"
   ],
   "note": ""
  },
  {
   "property": "C47",
   "status": "proved",
   "theorems": [
    "Records.C47_filter_by_tag",
    "Records.C47_refuted",
    "Records.C47_tags"
   ],
   "note": ""
  },
  {
   "property": "C48",
   "status": "proved",
   "theorems": [
    "Records.C48_annotated_final",
    "Records.C48_final_is_plain",
    "Records.C48_final_needs_frozen",
    "Records.C48_refuted"
   ],
   "note": ""
  },
  {
   "property": "C49",
   "status": "proved",
   "theorems": [
    "Records.C49_construction_refines",
    "Records.C49_keyword_construction"
   ],
   "note": ""
  },
  {
   "property": "C50",
   "status": "proved",
   "theorems": [
    "Records.C50_unknown_keyword"
   ],
   "note": ""
  },
  {
   "property": "C51",
   "status": "proved",
   "theorems": [
    "Records.C51_missing_required"
   ],
   "note": ""
  },
  {
   "property": "C52",
   "status": "proved",
   "theorems": [
    "Records.C52_default_verbatim",
    "Records.C52_filler_not_used"
   ],
   "note": ""
  },
  {
   "property": "C53",
   "status": "proved",
   "theorems": [
    "Records.C53_order_irrelevant",
    "Records.C53_success_iff"
   ],
   "note": ""
  },
  {
   "property": "C54",
   "status": "proved",
   "theorems": [
    "Records.C54_factory_at_most_once",
    "Records.C54_factory_once"
   ],
   "note": ""
  },
  {
   "property": "C55",
   "status": "proved",
   "theorems": [
    "Records.C55_ambiguous",
    "Records.C55_not_parsed",
    "Records.C55_parsed_field",
    "Records.C55_parsed_no_field",
    "Records.C55_standby"
   ],
   "note": ""
  },
  {
   "property": "C56",
   "status": "proved",
   "theorems": [
    "Records.C56_factory_failure",
    "Records.C56_fill_failure",
    "Records.C56_post_failure",
    "Records.C56_refuted"
   ],
   "note": ""
  },
  {
   "property": "C57",
   "status": "proved",
   "theorems": [
    "Records.C57_cases",
    "Records.C57_interrupted",
    "Records.C57_json_parser",
    "Records.C57_mapping_parser",
    "Records.C57_parse"
   ],
   "note": ""
  },
  {
   "property": "C58",
   "status": "proved",
   "theorems": [
    "Records.C58_interrupted",
    "Records.C58_parser_order",
    "Records.C58_whole_class"
   ],
   "note": ""
  },
  {
   "property": "C59",
   "status": "proved",
   "theorems": [
    "Records.C59_ambiguous",
    "Records.C59_from_instance",
    "Records.C59_refuted",
    "Records.C59_required"
   ],
   "note": ""
  },
  {
   "property": "C60",
   "status": "proved",
   "theorems": [
    "Records.C60_fill_error"
   ],
   "note": ""
  },
  {
   "property": "C61",
   "status": "proved",
   "theorems": [
    "Records.C61_arg_cls",
    "Records.C61_passed_through",
    "Records.C61_self"
   ],
   "note": ""
  },
  {
   "property": "C62",
   "status": "proved",
   "theorems": [
    "Records.C62_post_new_decides",
    "Records.C62_post_new_once",
    "Records.C62_post_new_raises"
   ],
   "note": ""
  },
  {
   "property": "C63",
   "status": "proved",
   "theorems": [
    "Records.C63_clash",
    "Records.C63_from_mapping",
    "Records.C63_select"
   ],
   "note": ""
  },
  {
   "property": "C64",
   "status": "proved",
   "theorems": [
    "Records.C64_clash",
    "Records.C64_missing",
    "Records.C64_precedence",
    "Records.C64_two_mappings"
   ],
   "note": ""
  },
  {
   "property": "C65",
   "status": "proved",
   "theorems": [
    "Records.C65_constructs",
    "Records.C65_same_object"
   ],
   "note": ""
  },
  {
   "property": "C66",
   "status": "proved",
   "theorems": [
    "Records.C66_like_mapping",
    "Records.C66_refuted",
    "Records.C66_refuted_maybe_add",
    "Records.C66_select"
   ],
   "note": ""
  },
  {
   "property": "C67",
   "status": "proved",
   "theorems": [
    "Records.C67_eq_iff",
    "Records.C67_other_class",
    "Records.C67_refl",
    "Records.C67_symm",
    "Records.C67_trans"
   ],
   "note": ""
  },
  {
   "property": "C68",
   "status": "proved",
   "theorems": [
    "Records.C68_equal_hash",
    "Records.C68_hash"
   ],
   "note": ""
  },
  {
   "property": "C69",
   "status": "proved",
   "theorems": [
    "Records.C69_hash_twice",
    "Records.C69_stable_hash"
   ],
   "note": ""
  },
  {
   "property": "C70",
   "status": "proved",
   "theorems": [
    "Records.C70_absent",
    "Records.C70_assignment",
    "Records.C70_deletion",
    "Records.C70_history",
    "Records.C70_not_frozen",
    "Records.C70_refuted"
   ],
   "note": ""
  },
  {
   "property": "C71",
   "status": "proved",
   "theorems": [
    "Records.C71_incomparable",
    "Records.C71_incomparable_right",
    "Records.C71_not_frozen",
    "Records.C71_refuted",
    "Records.C71_unhashable",
    "Records.C71_unhashable_value"
   ],
   "note": ""
  },
  {
   "property": "C72",
   "status": "proved",
   "theorems": [
    "Records.C72_consistent",
    "Records.C72_lexicographic",
    "Records.C72_total",
    "Records.C72_trans"
   ],
   "note": ""
  },
  {
   "property": "C73",
   "status": "proved",
   "theorems": [
    "Records.C73_agrees_with_eq",
    "Records.C73_equal_not_less",
    "Records.C73_mutual_le",
    "Records.C73_refuted"
   ],
   "note": ""
  },
  {
   "property": "C74",
   "status": "proved",
   "theorems": [
    "Records.C74_reflected",
    "Records.C74_reflected_same",
    "Records.C74_subclass",
    "Records.C74_unordered",
    "Records.C74_unrelated"
   ],
   "note": ""
  },
  {
   "property": "C75",
   "status": "proved",
   "theorems": [
    "Records.C75_attribute_error",
    "Records.C75_blacklist_container",
    "Records.C75_to_dict"
   ],
   "note": ""
  },
  {
   "property": "C76",
   "status": "proved",
   "theorems": [
    "Records.C76_ascending",
    "Records.C76_descending",
    "Records.C76_key",
    "Records.C76_sort_permutes"
   ],
   "note": ""
  },
  {
   "property": "C77",
   "status": "proved",
   "theorems": [
    "Records.C77_constructed",
    "Records.C77_refuted_names",
    "Records.C77_round_trip"
   ],
   "note": ""
  },
  {
   "property": "C78",
   "status": "proved",
   "theorems": [
    "Records.C78_json_round_trip"
   ],
   "note": ""
  },
  {
   "property": "C79",
   "status": "proved",
   "theorems": [
    "Records.C79_frozen",
    "Records.C79_not_frozen"
   ],
   "note": ""
  },
  {
   "property": "C80",
   "status": "proved",
   "theorems": [
    "Records.C80_deepcopy"
   ],
   "note": ""
  },
  {
   "property": "C81",
   "status": "proved",
   "theorems": [
    "Records.C81_attributes",
    "Records.C81_exact",
    "Records.C81_fails",
    "Records.C81_succeeds"
   ],
   "note": ""
  },
  {
   "property": "C82",
   "status": "proved",
   "theorems": [
    "Records.C82_cached",
    "Records.C82_refuted",
    "Records.C82_uncached"
   ],
   "note": ""
  },
  {
   "property": "C83",
   "status": "proved",
   "theorems": [
    "Records.C83_repr",
    "Records.C83_repr_options"
   ],
   "note": ""
  },
  {
   "property": "C84",
   "status": "proved",
   "theorems": [
    "Records.C84_call",
    "Records.C84_call_args",
    "Records.C84_factory_call",
    "Records.C84_factory_immutable",
    "Records.C84_immutable",
    "Records.C84_last_keyword_wins",
    "Records.C84_refuted",
    "Records.C84_refuted_iterators"
   ],
   "note": ""
  },
  {
   "property": "C85",
   "status": "proved",
   "theorems": [
    "Records.C85_calls",
    "Records.C85_int_result",
    "Records.C85_refuted_rounding",
    "Records.C85_whole_float",
    "Records.C85_whole_float_exact"
   ],
   "note": ""
  },
  {
   "property": "C86",
   "status": "proved",
   "theorems": [
    "Records.C86_eval",
    "Records.C86_namespace"
   ],
   "note": ""
  },
  {
   "property": "C87",
   "status": "proved",
   "theorems": [
    "Records.C87_error",
    "Records.C87_inherited_pre_bind",
    "Records.C87_no_subclass",
    "Records.C87_program"
   ],
   "note": ""
  },
  {
   "property": "C88",
   "status": "proved",
   "theorems": [
    "Records.C88_program",
    "Records.C88_refuted",
    "Records.C88_required_iff"
   ],
   "note": ""
  },
  {
   "property": "C89",
   "status": "proved",
   "theorems": [
    "Records.C89_refuted",
    "Records.C89_select_sees_export"
   ],
   "note": ""
  },
  {
   "property": "C90",
   "status": "proved",
   "theorems": [
    "Records.C90_conforming_kept",
    "Records.C90_idempotent",
    "Records.C90_refuted_union"
   ],
   "note": ""
  },
  {
   "property": "C91",
   "status": "proved",
   "theorems": [
    "Records.C91_copy",
    "Records.C91_history",
    "Records.C91_invariant",
    "Records.C91_refuted_default",
    "Records.C91_round_trip",
    "Records.C91_types",
    "Records.C91_unpickled"
   ],
   "note": ""
  },
  {
   "property": "C92",
   "status": "proved",
   "theorems": [
    "Records.C92_class_is_instance",
    "Records.C92_ignored",
    "Records.C92_interchangeable",
    "Records.C92_meaning",
    "Records.C92_raises",
    "Records.C92_refuted",
    "Records.C92_wrapped"
   ],
   "note": ""
  },
  {
   "property": "C93",
   "status": "proved",
   "theorems": [
    "Records.C93_adds",
    "Records.C93_decorator",
    "Records.C93_equivalent",
    "Records.C93_refuses",
    "Records.C93_runs"
   ],
   "note": ""
  },
  {
   "property": "C94",
   "status": "proved",
   "theorems": [
    "Records.C94_declared",
    "Records.C94_declared_map",
    "Records.C94_declared_unpack",
    "Records.C94_degenerate",
    "Records.C94_loose",
    "Records.C94_refuted",
    "Records.C94_unpack",
    "Records.C94_unpack_map"
   ],
   "note": ""
  },
  {
   "property": "C95",
   "status": "proved",
   "theorems": [
    "Records.C95_exception",
    "Records.C95_literal",
    "Records.C95_refused"
   ],
   "note": ""
  },
  {
   "property": "C96",
   "status": "proved",
   "theorems": [
    "Records.C96_bind",
    "Records.C96_isolated",
    "Records.C96_names",
    "Records.C96_pure",
    "Records.C96_refuted",
    "Records.C96_unnamed"
   ],
   "note": ""
  },
  {
   "property": "C97",
   "status": "proved",
   "theorems": [
    "Records.C97_alias",
    "Records.C97_bases",
    "Records.C97_field_shadows",
    "Records.C97_from",
    "Records.C97_hooks",
    "Records.C97_inherited",
    "Records.C97_mro",
    "Records.C97_parsers",
    "Records.Toy.Prog.C97_refuted"
   ],
   "note": ""
  },
  {
   "property": "C98",
   "status": "proved",
   "theorems": [
    "Records.C98_declared",
    "Records.C98_inherited",
    "Records.Toy.Prog.C98_refuted"
   ],
   "note": ""
  },
  {
   "property": "C99",
   "status": "proved",
   "theorems": [
    "Records.C99_bad_key",
    "Records.C99_container",
    "Records.C99_field",
    "Records.C99_keys",
    "Records.C99_union"
   ],
   "note": ""
  },
  {
   "property": "C100",
   "status": "proved",
   "theorems": [
    "Records.C100_keywords",
    "Records.C100_no_parse",
    "Records.C100_parse",
    "Records.C100_positional",
    "Records.C100_refuted"
   ],
   "note": ""
  },
  {
   "property": "C101",
   "status": "proved",
   "theorems": [
    "Records.C101_blacklist",
    "Records.C101_blacklist_numbers",
    "Records.C101_carries",
    "Records.C101_declaration",
    "Records.C101_filter",
    "Records.C101_numbering",
    "Records.C101_numbers",
    "Records.C101_refuted",
    "Records.C101_unhashable"
   ],
   "note": ""
  },
  {
   "property": "C102",
   "status": "proved",
   "theorems": [
    "Records.C102_clash",
    "Records.C102_from_json_io",
    "Records.C102_from_pickle",
    "Records.C102_from_pickle_io",
    "Records.C102_no_file",
    "Records.C102_through_file",
    "Records.C102_to_json",
    "Records.C102_to_pickle"
   ],
   "note": ""
  },
  {
   "property": "C103",
   "status": "proved",
   "theorems": [
    "Records.C103_degenerate",
    "Records.C103_exact",
    "Records.C103_range",
    "Records.C103_refuted",
    "Records.C103_rounding",
    "Records.C103_whole",
    "Records.C103_zero"
   ],
   "note": ""
  },
  {
   "property": "C104",
   "status": "proved",
   "theorems": [
    "Records.C104_builtin_tokens",
    "Records.C104_construct",
    "Records.C104_fill",
    "Records.C104_from_instance",
    "Records.C104_from_json",
    "Records.C104_from_mapping",
    "Records.C104_parse",
    "Records.C104_select"
   ],
   "note": ""
  },
  {
   "property": "C105",
   "status": "proved",
   "theorems": [
    "Records.C105_copy",
    "Records.C105_frozen",
    "Records.C105_refuted",
    "Records.C105_single",
    "Records.C105_stored"
   ],
   "note": ""
  },
  {
   "property": "C106",
   "status": "proved",
   "theorems": [
    "Records.C106_agree",
    "Records.C106_clamp",
    "Records.C106_init",
    "Records.C106_nan_bound",
    "Records.C106_refuted",
    "Records.C106_within"
   ],
   "note": ""
  },
  {
   "property": "C107",
   "status": "proved",
   "theorems": [
    "Records.C107_left",
    "Records.C107_left_equal",
    "Records.C107_left_unordered",
    "Records.C107_reflected",
    "Records.C107_refuted",
    "Records.C107_right",
    "Records.C107_right_equal"
   ],
   "note": ""
  },
  {
   "property": "C108",
   "status": "proved",
   "theorems": [
    "Records.C108_causes",
    "Records.C108_program"
   ],
   "note": ""
  },
  {
   "property": "C109",
   "status": "proved",
   "theorems": [
    "Records.C109_eq",
    "Records.C109_eq_frozen",
    "Records.C109_hash",
    "Records.C109_hash_cached",
    "Records.C109_include_defaults",
    "Records.C109_no_defaults",
    "Records.C109_order_self",
    "Records.C109_plain_eq",
    "Records.C109_plain_hash",
    "Records.C109_plain_order",
    "Records.C109_plain_repr",
    "Records.C109_plain_to_dict",
    "Records.C109_refuted",
    "Records.C109_repr",
    "Records.C109_to_dict"
   ],
   "note": ""
  },
  {
   "property": "C110",
   "status": "proved",
   "theorems": [
    "Records.C110_declared",
    "Records.C110_full_match",
    "Records.C110_json",
    "Records.C110_kept",
    "Records.C110_pickle"
   ],
   "note": ""
  },
  {
   "property": "C111",
   "status": "proved",
   "theorems": [
    "Records.C111_eq",
    "Records.C111_hash",
    "Records.C111_in_use",
    "Records.C111_operation",
    "Records.C111_order",
    "Records.C111_read",
    "Records.C111_repr",
    "Records.C111_to_dict"
   ],
   "note": ""
  },
  {
   "property": "C112",
   "status": "proved",
   "theorems": [
    "Records.C112_empty",
    "Records.C112_export",
    "Records.C112_fresh",
    "Records.C112_from_instance",
    "Records.C112_from_json",
    "Records.C112_from_mapping",
    "Records.C112_later",
    "Records.C112_merge",
    "Records.C112_reiterable",
    "Records.Toy.Once.C112_refuted_from_instance",
    "Records.Toy.Once.C112_refuted_from_mapping"
   ],
   "note": ""
  },
  {
   "property": "C113",
   "status": "proved",
   "theorems": [
    "Records.C113_call",
    "Records.C113_call_silent",
    "Records.C113_init",
    "Records.C113_setattr_hash",
    "Records.C113_silent",
    "Records.C113_warnings",
    "Records.Toy.Spc.C113_refuted_not_called",
    "Records.Toy.Spc.C113_refuted_overridden"
   ],
   "note": ""
  },
  {
   "property": "C114",
   "status": "proved",
   "theorems": [
    "Records.C114_dict",
    "Records.C114_len",
    "Records.C114_not_frozen",
    "Records.C114_raises",
    "Records.C114_refuted"
   ],
   "note": ""
  },
  {
   "property": "C115",
   "status": "proved",
   "theorems": [
    "Records.C115_algorithm",
    "Records.C115_permuted",
    "Records.C115_refuted",
    "Records.C115_sorted",
    "Records.C115_stable",
    "Records.C115_unordered"
   ],
   "note": ""
  },
  {
   "property": "C116",
   "status": "proved",
   "theorems": [
    "Records.C116_eval",
    "Records.C116_nests",
    "Records.C116_reads",
    "Records.C116_refuted",
    "Records.C116_same"
   ],
   "note": ""
  },
  {
   "property": "C117",
   "status": "proved",
   "theorems": [
    "Records.C117_consistent",
    "Records.C117_lexicographic",
    "Records.C117_mutual",
    "Records.C117_prefix",
    "Records.C117_refuted",
    "Records.C117_stable",
    "Records.C117_total",
    "Records.C117_trans"
   ],
   "note": ""
  },
  {
   "property": "C118",
   "status": "proved",
   "theorems": [
    "Records.C118_demand",
    "Records.C118_plain",
    "Records.C118_refuted",
    "Records.C118_serves",
    "Records.C118_sets",
    "Records.C118_slicing",
    "Records.C118_through",
    "Records.C118_total",
    "Records.C118_tuple",
    "Records.C118_unhashable"
   ],
   "note": ""
  },
  {
   "property": "C119",
   "status": "proved",
   "theorems": [
    "Records.C119_alone",
    "Records.C119_alone_apply",
    "Records.C119_alone_eq",
    "Records.C119_answers",
    "Records.C119_finishes",
    "Records.C119_memory",
    "Records.C119_refuted_compare",
    "Records.C119_refuted_export",
    "Records.C119_schedule"
   ],
   "note": ""
  },
  {
   "property": "C120",
   "status": "proved",
   "theorems": [
    "Records.C120_deepcopy",
    "Records.C120_equivalence",
    "Records.C120_hash",
    "Records.C120_hashed",
    "Records.C120_library",
    "Records.C120_mutable",
    "Records.C120_pickle",
    "Records.C120_refuted",
    "Records.C120_respects",
    "Records.C120_true"
   ],
   "note": ""
  },
  {
   "property": "C121",
   "status": "proved",
   "theorems": [
    "Records.C121_copy",
    "Records.C121_independent",
    "Records.C121_refuted_cycle",
    "Records.C121_refuted_independent",
    "Records.C121_refuted_tuple",
    "Records.C121_returns",
    "Records.C121_self"
   ],
   "note": ""
  },
  {
   "property": "C122",
   "status": "proved",
   "theorems": [
    "Records.C122_equivalence",
    "Records.C122_hash",
    "Records.C122_hashable",
    "Records.C122_tree"
   ],
   "note": ""
  },
  {
   "property": "C123",
   "status": "proved",
   "theorems": [
    "Records.C123_refuted_transitive",
    "Records.C123_total"
   ],
   "note": ""
  },
  {
   "property": "C124",
   "status": "proved",
   "theorems": [
    "Records.C124_document",
    "Records.C124_keywords",
    "Records.C124_leaf",
    "Records.C124_none",
    "Records.C124_refuted_single"
   ],
   "note": ""
  },
  {
   "property": "C125",
   "status": "proved",
   "theorems": [
    "Records.C125_dumps",
    "Records.C125_loads",
    "Records.C125_refuses",
    "Records.C125_restored"
   ],
   "note": ""
  },
  {
   "property": "C126",
   "status": "proved",
   "theorems": [
    "Records.C126_back",
    "Records.C126_document",
    "Records.C126_json",
    "Records.C126_keywords",
    "Records.C126_refuted_union"
   ],
   "note": ""
  },
  {
   "property": "C127",
   "status": "proved",
   "theorems": [
    "Records.C127_copy",
    "Records.C127_pickle"
   ],
   "note": ""
  },
  {
   "property": "C128",
   "status": "proved",
   "theorems": [
    "Records.C128_cached",
    "Records.C128_constant",
    "Records.C128_equal",
    "Records.C128_hash",
    "Records.C128_refuted"
   ],
   "note": ""
  },
  {
   "property": "C129",
   "status": "proved",
   "theorems": [
    "Records.C129_checked",
    "Records.C129_class",
    "Records.C129_field",
    "Records.C129_misfit",
    "Records.C129_part",
    "Records.C129_target",
    "Records.C129_unchecked"
   ],
   "note": ""
  },
  {
   "property": "C130",
   "status": "proved",
   "theorems": [
    "Records.C130_arity",
    "Records.C130_extra",
    "Records.C130_meaning",
    "Records.C130_refuted",
    "Records.C130_same",
    "Records.C130_unknown"
   ],
   "note": ""
  },
  {
   "property": "C131",
   "status": "proved",
   "theorems": [
    "Records.C131_alike",
    "Records.C131_copy",
    "Records.C131_ends",
    "Records.C131_exact",
    "Records.C131_limit",
    "Records.C131_loops",
    "Records.C131_pickle",
    "Records.C131_reads",
    "Records.C131_text",
    "Records.Toy.Prn.C131_refuted"
   ],
   "note": ""
  },
  {
   "property": "C132",
   "status": "proved",
   "theorems": [
    "Records.C132_copies",
    "Records.C132_deepcopy",
    "Records.C132_differ",
    "Records.C132_ends",
    "Records.C132_equal",
    "Records.C132_exclusive",
    "Records.C132_limit",
    "Records.C132_loops",
    "Records.C132_nested",
    "Records.C132_only",
    "Records.C132_pickle",
    "Records.C132_record",
    "Records.C132_self",
    "Records.C132_unlike",
    "Records.Toy.Cmp.C132_refuted",
    "Records.Toy.Cmp.C132_refuted_deepcopy"
   ],
   "note": ""
  }
 ]
}