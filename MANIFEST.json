{
 "claims": [
  {
   "property": "C01",
   "status": "proved",
   "theorems": [
    "Uttut.C01_lst_apply_eq_slice_assignment",
    "Uttut.C01_str_apply_eq_slice_assignment",
    "Uttut.C01_apply_never_raises",
    "Uttut.C01_out_of_bounds_differs"
   ],
   "note": "Starts must be within the sequence; C01_out_of_bounds_differs is the witness that the equation fails beyond it (apply still never raises)."
  },
  {
   "property": "C02",
   "status": "proved",
   "theorems": [
    "Uttut.C02_lst_inverse_restores",
    "Uttut.C02_str_inverse_restores"
   ],
   "note": ""
  },
  {
   "property": "C03",
   "status": "proved",
   "theorems": [
    "Uttut.C03_lst_touching_equal_deletions",
    "Uttut.C03_str_touching_equal_deletions",
    "Uttut.C03_lst_inverse_exact",
    "Uttut.C03_str_inverse_exact",
    "Uttut.C03_touching_deletions_order_dependent"
   ],
   "note": ""
  },
  {
   "property": "C04",
   "status": "proved",
   "theorems": [
    "Uttut.C04_addAll_acceptance",
    "Uttut.C04_addAll_overflow"
   ],
   "note": ""
  },
  {
   "property": "C05",
   "status": "proved",
   "theorems": [
    "Uttut.C05_group_sorted",
    "Uttut.C05_group_canonical",
    "Uttut.C05_equality",
    "Uttut.C05_equality_not_done",
    "Uttut.C05_replacement_hash"
   ],
   "note": ""
  },
  {
   "property": "C06",
   "status": "proved",
   "theorems": [
    "Uttut.C06_bad_order_dropped",
    "Uttut.C06_good_order_recorded",
    "Uttut.C06_out_of_range"
   ],
   "note": ""
  },
  {
   "property": "C07",
   "status": "proved",
   "theorems": [
    "Uttut.C07_propagate_eq_slice_assignment",
    "Uttut.C07_propagate_length"
   ],
   "note": ""
  },
  {
   "property": "C08",
   "status": "proved",
   "theorems": [
    "Uttut.C08_default_transducer",
    "Uttut.C08_get_most_common",
    "Uttut.C08_except_not_entity",
    "Uttut.C08_implementations_agree"
   ],
   "note": ""
  },
  {
   "property": "C09",
   "status": "proved",
   "theorems": [
    "Uttut.C09_reduce_negative_is_zero",
    "Uttut.C09_reduce_total",
    "Uttut.C09_expand_negative_raises"
   ],
   "note": ""
  },
  {
   "property": "C10",
   "status": "proved",
   "theorems": [
    "Uttut.C10_span_group_acceptance",
    "Uttut.C10_stable_sort_exists",
    "Uttut.C10_accepted_covers",
    "Uttut.C10_order_dependent",
    "Uttut.C10_equality",
    "Uttut.C10_equality_nonempty",
    "Uttut.C10_equality_coarse",
    "Uttut.C10_equality_not_done",
    "Uttut.C10_tuples"
   ],
   "note": ""
  },
  {
   "property": "C11",
   "status": "proved",
   "theorems": [
    "Uttut.C11_split_join",
    "Uttut.C11_join_split",
    "Uttut.C11_split_errors",
    "Uttut.C11_join_errors"
   ],
   "note": ""
  },
  {
   "property": "C12",
   "status": "proved",
   "theorems": [
    "Uttut.C12_gen_span_group",
    "Uttut.C12_gen_span_group_splits",
    "Uttut.C12_gen_replacement_group",
    "Uttut.C12_gen_replacement_group_inverse"
   ],
   "note": ""
  },
  {
   "property": "C13",
   "status": "proved",
   "theorems": [
    "Uttut.C13_expand",
    "Uttut.C13_reduce_expand",
    "Uttut.C13_wrong_length",
    "Uttut.C13_not_done"
   ],
   "note": ""
  },
  {
   "property": "C14",
   "status": "proved",
   "theorems": [
    "Uttut.C14_forward",
    "Uttut.C14_aligned",
    "Uttut.C14_unsafe",
    "Uttut.C14_safe",
    "Uttut.C14_C59_pipe",
    "Uttut.C14_C59_datum"
   ],
   "note": "Quantified over every constructor call of every operator class (Builtin.all), every environment (set iteration order, Unicode tables, regex engine). Env.Sane asks only that \".\" matches and that the regex engine returns spans inside the text."
  },
  {
   "property": "C15",
   "status": "proved",
   "theorems": [
    "Uttut.C15_transform_wrong_length",
    "Uttut.C15_inverse_wrong_length",
    "Uttut.C15_transform_error",
    "Uttut.C15_transform_length",
    "Uttut.C15_inverse_length",
    "Uttut.C15_transform_bad_output",
    "Uttut.C15_inverse",
    "Uttut.C15_transform_ok"
   ],
   "note": ""
  },
  {
   "property": "C16",
   "status": "proved",
   "theorems": [
    "Uttut.C16_lowercase",
    "Uttut.C16_idempotent"
   ],
   "note": ""
  },
  {
   "property": "C17",
   "status": "proved",
   "theorems": [
    "Uttut.C17_punctuation",
    "Uttut.C17_cjk",
    "Uttut.C17_around",
    "Uttut.C17_cjk_op",
    "Uttut.C17_punctuation_op"
   ],
   "note": ""
  },
  {
   "property": "C18",
   "status": "proved",
   "theorems": [
    "Uttut.C18_float_form",
    "Uttut.C18_runs",
    "Uttut.C18_C19_int_token",
    "Uttut.C18_C19_int_token_with_space",
    "Uttut.C18_C19_num_token_with_space",
    "Uttut.C18_C19_float_token",
    "Uttut.C18_C19_float_token_with_space"
   ],
   "note": ""
  },
  {
   "property": "C19",
   "status": "proved",
   "theorems": [
    "Uttut.C18_C19_int_token",
    "Uttut.C18_C19_int_token_with_space",
    "Uttut.C18_C19_num_token_with_space",
    "Uttut.C18_C19_float_token",
    "Uttut.C18_C19_float_token_with_space"
   ],
   "note": ""
  },
  {
   "property": "C20",
   "status": "proved",
   "theorems": [
    "Uttut.C20_idempotent",
    "Uttut.C20_commute",
    "Uttut.C20_int_keeps_decimals"
   ],
   "note": ""
  },
  {
   "property": "C21",
   "status": "proved",
   "theorems": [
    "Uttut.C21_merge",
    "Uttut.C21_no_adjacent",
    "Uttut.C21_idempotent",
    "Uttut.C21_split"
   ],
   "note": ""
  },
  {
   "property": "C22",
   "status": "proved",
   "theorems": [
    "Uttut.C22_strip_form",
    "Uttut.C22_strip",
    "Uttut.C22_idempotent"
   ],
   "note": ""
  },
  {
   "property": "C23",
   "status": "proved",
   "theorems": [
    "Uttut.C23_segments",
    "Uttut.C23_stopwords",
    "Uttut.C23_no_stopword_left"
   ],
   "note": ""
  },
  {
   "property": "C24",
   "status": "proved",
   "theorems": [
    "Uttut.C24_terminates_iff",
    "Uttut.C24_fuel",
    "Uttut.C24_regex_sound",
    "Uttut.C24_nonempty_matches",
    "Uttut.C24_empty_pattern"
   ],
   "note": ""
  },
  {
   "property": "C25",
   "status": "proved",
   "theorems": [
    "Uttut.C25_replace",
    "Uttut.C25_touching_deletions",
    "Uttut.C25_matches_exist",
    "Uttut.C25_leftmost"
   ],
   "note": ""
  },
  {
   "property": "C26",
   "status": "proved",
   "theorems": [
    "Uttut.C26_transform",
    "Uttut.C26_no_punctuation",
    "Uttut.C26_idempotent"
   ],
   "note": ""
  },
  {
   "property": "C27",
   "status": "proved",
   "theorems": [
    "Uttut.C27_transform",
    "Uttut.C27_length_change"
   ],
   "note": ""
  },
  {
   "property": "C28",
   "status": "proved",
   "theorems": [
    "Uttut.C28_add_sos_eos",
    "Uttut.C28_add_end_token",
    "Uttut.C28_round_trip",
    "Uttut.C28_empty_end_token"
   ],
   "note": "Lists shorter than 2^32 (bounds are unsigned 32-bit integers)."
  },
  {
   "property": "C29",
   "status": "proved",
   "theorems": [
    "Uttut.C29_empty_list",
    "Uttut.C29_both_orders",
    "Uttut.C29_equal_tokens"
   ],
   "note": ""
  },
  {
   "property": "C30",
   "status": "proved",
   "theorems": [
    "Uttut.C30_pad",
    "Uttut.C30_too_long",
    "Uttut.C30_negative"
   ],
   "note": "Lists shorter than 2^32 (bounds are unsigned 32-bit integers)."
  },
  {
   "property": "C31",
   "status": "proved",
   "theorems": [
    "Uttut.C31_continuity",
    "Uttut.C31_init",
    "Uttut.C31_transform"
   ],
   "note": ""
  },
  {
   "property": "C32",
   "status": "proved",
   "theorems": [
    "Uttut.C32_fmix_injective",
    "Uttut.C32_mixK_injective",
    "Uttut.C32_mixH_injective",
    "Uttut.C32_seed_injective",
    "Uttut.C32_block_change",
    "Uttut.C32_utf8",
    "Uttut.C32_hash_range",
    "Uttut.C32_transform",
    "Uttut.C32_non_string",
    "Uttut.C32_murmur3",
    "Uttut.C32_consistent_hash"
   ],
   "note": "Bijectivity is stated as injectivity on the finite type of 32-bit words; C32_block_change and C32_seed_injective lift it to the whole hash."
  },
  {
   "property": "C33",
   "status": "proved",
   "theorems": [
    "Uttut.C33_segmentation",
    "Uttut.C33_unknown",
    "Uttut.C33_concatenates"
   ],
   "note": ""
  },
  {
   "property": "C34",
   "status": "proved",
   "theorems": [
    "Uttut.C34_transform",
    "Uttut.C34_adjacent_empty"
   ],
   "note": ""
  },
  {
   "property": "C35",
   "status": "proved",
   "theorems": [
    "Uttut.C35_transform",
    "Uttut.C35_non_string"
   ],
   "note": ""
  },
  {
   "property": "C36",
   "status": "proved",
   "theorems": [
    "Uttut.C36_build",
    "Uttut.C36_membership",
    "Uttut.C36_match_prefix",
    "Uttut.C36_order_irrelevant"
   ],
   "note": ""
  },
  {
   "property": "C37",
   "status": "proved",
   "theorems": [
    "Uttut.C37_division_unique",
    "Uttut.C37_C42_custom"
   ],
   "note": ""
  },
  {
   "property": "C38",
   "status": "proved",
   "theorems": [
    "Uttut.C38_spaces"
   ],
   "note": ""
  },
  {
   "property": "C39",
   "status": "proved",
   "theorems": [
    "Uttut.C39_C42_whitespace",
    "Uttut.C39_white_space",
    "Uttut.C39_C40_join",
    "Uttut.C39_words"
   ],
   "note": ""
  },
  {
   "property": "C40",
   "status": "proved",
   "theorems": [
    "Uttut.C40_C42_eng",
    "Uttut.C40_C42_zh",
    "Uttut.C40_cuts_unique",
    "Uttut.C39_C40_join"
   ],
   "note": ""
  },
  {
   "property": "C41",
   "status": "proved",
   "theorems": [
    "Uttut.C41_char"
   ],
   "note": ""
  },
  {
   "property": "C42",
   "status": "proved",
   "theorems": [
    "Uttut.C39_C42_whitespace",
    "Uttut.C40_C42_eng",
    "Uttut.C40_C42_zh",
    "Uttut.C37_C42_custom"
   ],
   "note": ""
  },
  {
   "property": "C43",
   "status": "proved",
   "theorems": [
    "Uttut.C43_datum",
    "Uttut.C43_errors",
    "Uttut.C43_sort_unique"
   ],
   "note": ""
  },
  {
   "property": "C44",
   "status": "proved",
   "theorems": [
    "Uttut.C44_disjoint",
    "Uttut.C44_characters",
    "Uttut.C44_negative_bounds_collide",
    "Uttut.C44_beyond_end"
   ],
   "note": ""
  },
  {
   "property": "C45",
   "status": "proved",
   "theorems": [
    "Uttut.C45_unpack",
    "Uttut.C45_labels",
    "Uttut.C45_beyond_end"
   ],
   "note": ""
  },
  {
   "property": "C46",
   "status": "proved",
   "theorems": [
    "Uttut.C46_pack",
    "Uttut.C46_pack_errors"
   ],
   "note": ""
  },
  {
   "property": "C47",
   "status": "proved",
   "theorems": [
    "Uttut.C47_entity_eq",
    "Uttut.C47_entity_equivalence",
    "Uttut.C47_datum_eq",
    "Uttut.C47_datum_equivalence",
    "Uttut.C47_dict_round_trip",
    "Uttut.C47_constructed"
   ],
   "note": ""
  },
  {
   "property": "C48",
   "status": "proved",
   "theorems": [
    "Uttut.C48_kth",
    "Uttut.C48_bijection",
    "Uttut.C48_errors"
   ],
   "note": ""
  },
  {
   "property": "C49",
   "status": "proved",
   "theorems": [
    "Uttut.C49_partition",
    "Uttut.C49_order_irrelevant"
   ],
   "note": ""
  },
  {
   "property": "C50",
   "status": "proved",
   "theorems": [
    "Uttut.C50_sampling",
    "Uttut.C50_too_many",
    "Uttut.C50_all",
    "Uttut.C50_count",
    "Uttut.C50_count_constructed",
    "Uttut.C50_original",
    "Uttut.C50_valid",
    "Uttut.C50_no_entities"
   ],
   "note": ""
  },
  {
   "property": "C51",
   "status": "proved",
   "theorems": [
    "Uttut.C51_labelling",
    "Uttut.C51_value",
    "Uttut.C51_symmetric",
    "Uttut.C51_errors",
    "Uttut.C51_one",
    "Uttut.C51_bounds",
    "Uttut.C51_unpack"
   ],
   "note": ""
  },
  {
   "property": "C52",
   "status": "proved",
   "theorems": [
    "Uttut.C52_unique"
   ],
   "note": ""
  },
  {
   "property": "C53",
   "status": "proved",
   "theorems": [
    "Uttut.C53_new",
    "Uttut.C53_reserved_name",
    "Uttut.C53_inverse",
    "Uttut.C53_first"
   ],
   "note": ""
  },
  {
   "property": "C54",
   "status": "proved",
   "theorems": [
    "Uttut.C54_from_raw",
    "Uttut.C54_reserved"
   ],
   "note": ""
  },
  {
   "property": "C55",
   "status": "proved",
   "theorems": [
    "Uttut.C55_humanize_machanize",
    "Uttut.C55_unknown_label",
    "Uttut.C55_unknown_name",
    "Uttut.C55_machanize_humanize"
   ],
   "note": ""
  },
  {
   "property": "C56",
   "status": "proved",
   "theorems": [
    "Uttut.C56_loads",
    "Uttut.C56_load_errors",
    "Uttut.C56_load_no_numbers",
    "Uttut.C56_round_trip",
    "Uttut.C56_checked"
   ],
   "note": "The JSON codec itself is modelled and its round trip proved."
  },
  {
   "property": "C57",
   "status": "proved",
   "theorems": [
    "Uttut.C57_well_typed",
    "Uttut.C57_stepped_slice",
    "Uttut.C57_inputs_fit",
    "Uttut.C57_output_type",
    "Uttut.C57_type_check"
   ],
   "note": ""
  },
  {
   "property": "C58",
   "status": "proved",
   "theorems": [
    "Uttut.C58_composition",
    "Uttut.C58_collection_length",
    "Uttut.C58_error",
    "Uttut.C58_concat"
   ],
   "note": ""
  },
  {
   "property": "C59",
   "status": "proved",
   "theorems": [
    "Uttut.C14_C59_pipe",
    "Uttut.C14_C59_datum",
    "Uttut.C59_aligned",
    "Uttut.C59_round_trip",
    "Uttut.C59_transform"
   ],
   "note": ""
  },
  {
   "property": "C60",
   "status": "proved",
   "theorems": [
    "Uttut.C60_checkpoint",
    "Uttut.C60_unknown"
   ],
   "note": ""
  },
  {
   "property": "C61",
   "status": "proved",
   "theorems": [
    "Uttut.C61_add_op"
   ],
   "note": ""
  },
  {
   "property": "C62",
   "status": "proved",
   "theorems": [
    "Uttut.C62_built",
    "Uttut.C62_left",
    "Uttut.C62_right",
    "Uttut.C62_right_later",
    "Uttut.C62_iadd",
    "Uttut.C62_sum"
   ],
   "note": ""
  },
  {
   "property": "C63",
   "status": "proved",
   "theorems": [
    "Uttut.C63_slice",
    "Uttut.C63_index",
    "Uttut.C63_run",
    "Uttut.C63_checkpoints",
    "Uttut.C63_no_start",
    "Uttut.C63_negative_start",
    "Uttut.C63_steps",
    "Uttut.C63_slices",
    "Uttut.C63_unchecked"
   ],
   "note": ""
  },
  {
   "property": "C64",
   "status": "proved",
   "theorems": [
    "Uttut.C64_stable",
    "Uttut.C64_later_names"
   ],
   "note": ""
  },
  {
   "property": "C65",
   "status": "proved",
   "theorems": [
    "Uttut.C65_capture",
    "Uttut.C65_rebuild",
    "Uttut.C65_equal",
    "Uttut.C65_inherited_init"
   ],
   "note": ""
  },
  {
   "property": "C66",
   "status": "proved",
   "theorems": [
    "Uttut.C66_signatures",
    "Uttut.C66_reload",
    "Uttut.C66_operator",
    "Uttut.C66_operator_eq",
    "Uttut.C66_bundle",
    "Uttut.C66_pipe",
    "Uttut.C66_pipe_eq",
    "Uttut.C66_unknown_name",
    "Uttut.C66_bad_step",
    "Uttut.C66_tuple",
    "Uttut.C66_registered",
    "Uttut.C66_builtin",
    "Uttut.C66_builtin_pipe"
   ],
   "note": "The JSON codec itself is modelled (Verif/Model/Json.lean) and its round trip proved (Json.loads_dumps). C66_tuple is the witness that tuple arguments do not survive."
  },
  {
   "property": "C67",
   "status": "proved",
   "theorems": [
    "Uttut.C67_equal",
    "Uttut.C67_lookup",
    "Uttut.C67_register"
   ],
   "note": "C67_equal: classes are compared by identity, which is the parameter `same`."
  },
  {
   "property": "C68",
   "status": "proved",
   "theorems": [
    "Uttut.C68_basic",
    "Uttut.C68_tokens",
    "Uttut.C68_word_piece",
    "Uttut.C68_full",
    "Uttut.C68_configs",
    "Uttut.C68_solid",
    "Uttut.C68_alone",
    "Uttut.C68_made_punctuation"
   ],
   "note": "Unicode NFD and categories are parameters. C68_basic is exact for every text; C68_tokens assumes accents are stripped character by character (true of most texts, false e.g. for Hangul); C68_made_punctuation shows why the own-token claim is about characters of the input."
  },
  {
   "property": "C69",
   "status": "proved",
   "theorems": [
    "Uttut.C69_independent",
    "Uttut.C69_grows"
   ],
   "note": ""
  },
  {
   "property": "C70",
   "status": "proved",
   "theorems": [
    "Uttut.C70_index_pipe",
    "Uttut.C70_words_exist",
    "Uttut.C70_unreachable",
    "Uttut.C70_end_token",
    "Uttut.C70_readme_output"
   ],
   "note": "Texts shorter than 2^26 characters (token spans are unsigned 32-bit integers; number tokens can lengthen the text). '.' is not a decimal digit in the Unicode table. C70_readme_output records that the output printed in the README is not what the code computes."
  },
  {
   "property": "C71",
   "status": "proved",
   "theorems": [
    "Uttut.C71_summary",
    "Uttut.C71_built",
    "Uttut.C71_sum",
    "Uttut.C71_str"
   ],
   "note": "Python's repr and reprlib.repr are parameters; printing is the list of printed lines."
  },
  {
   "property": "C72",
   "status": "proved",
   "theorems": [
    "Uttut.C72_operator",
    "Uttut.C72_fromDict",
    "Uttut.C72_deserialize_op",
    "Uttut.C72_add",
    "Uttut.C72_transform_sequence",
    "Uttut.C72_transform",
    "Uttut.C72_build",
    "Uttut.C72_deserialize_pipe",
    "Uttut.C72_no_sos_eos"
   ],
   "note": ""
  },
  {
   "property": "C73",
   "status": "proved",
   "theorems": [
    "Uttut.C73_int_token",
    "Uttut.C73_int_token_with_space",
    "Uttut.C73_num_token_with_space",
    "Uttut.C73_float_token",
    "Uttut.C73_float_token_with_space",
    "Uttut.C73_merge",
    "Uttut.C73_stopwords",
    "Uttut.C73_strip",
    "Uttut.C73_punctuation",
    "Uttut.C73_replace",
    "Uttut.C73_whitespace_tokenizer",
    "Uttut.C73_eng_tokenizer",
    "Uttut.C73_zh_tokenizer",
    "Uttut.C73_custom_tokenizer",
    "Uttut.C73_char_tokenizer",
    "Uttut.C73_subwords",
    "Uttut.C73_pad",
    "Uttut.C73_lossless_text",
    "Uttut.C73_lossless_list",
    "Uttut.C73_settles",
    "Uttut.C73_pipe",
    "Uttut.C73_pipe_unsettled"
   ],
   "note": ""
  },
  {
   "property": "C74",
   "status": "proved",
   "theorems": [
    "Uttut.C74_base_classes",
    "Uttut.C74_sos_eos",
    "Uttut.C74_end_token",
    "Uttut.C74_pad",
    "Uttut.C74_token2index",
    "Uttut.C74_token2index_hash",
    "Uttut.C74_replace",
    "Uttut.C74_custom_tokenizer",
    "Uttut.C74_around_words",
    "Uttut.C74_subwords",
    "Uttut.C74_pure_num",
    "Uttut.C74_text_operators",
    "Uttut.C74_tokenizers",
    "Uttut.C74_no_arguments",
    "Uttut.C74_names",
    "Uttut.C74_after_import"
   ],
   "note": "AddSosEos on the empty list depends on the order of a set (C72); lists are shorter than 2^32."
  },
  {
   "property": "C75",
   "status": "proved",
   "theorems": [
    "Uttut.C75_pack",
    "Uttut.C75_unpack_pack",
    "Uttut.C75_pipe",
    "Uttut.C75_pipe_survives",
    "Uttut.C75_words",
    "Uttut.C75_no_space",
    "Uttut.C75_words_split"
   ],
   "note": ""
  },
  {
   "property": "C76",
   "status": "proved",
   "theorems": [
    "Uttut.C76_equivalence",
    "Uttut.C76_replace",
    "Uttut.C76_white_space",
    "Uttut.C76_eng",
    "Uttut.C76_zh",
    "Uttut.C76_zh_words",
    "Uttut.C76_around",
    "Uttut.C76_merge_strip",
    "Uttut.C76_lowercase",
    "Uttut.C76_lowercase_tokens",
    "Uttut.C76_twice",
    "Uttut.C76_around_swap",
    "Uttut.C76_basic"
   ],
   "note": "Assumptions on the Unicode table (a parameter) are hypotheses of the theorems that need them: white space and ASCII letters are not punctuation (category P). Intermediates and checkpoints of course differ."
  },
  {
   "property": "C77",
   "status": "proved",
   "theorems": [
    "Uttut.C77_contents",
    "Uttut.C77_raises",
    "Uttut.C77_readable",
    "Uttut.C77_stuck",
    "Uttut.C77_validated",
    "Uttut.C77_late_add",
    "Uttut.C77_failed_done",
    "Uttut.C77_not_done",
    "Uttut.C77_unchecked",
    "Uttut.C77_span_contents",
    "Uttut.C77_span_raises",
    "Uttut.C77_span_readable",
    "Uttut.C77_span_validated",
    "Uttut.C77_span_late_add",
    "Uttut.C77_span_unchecked"
   ],
   "note": "Direct access to private attributes is not modelled; calls are add, done(skip_sort) and the reading functions."
  },
  {
   "property": "C78",
   "status": "proved",
   "theorems": [
    "Uttut.C78_loaded_again",
    "Uttut.C78_json",
    "Uttut.C78_not_json",
    "Uttut.C78_json_one",
    "Uttut.C78_dumps",
    "Uttut.C78_dumps_tuples",
    "Uttut.C78_operator_written",
    "Uttut.C78_pipe_written",
    "Uttut.C78_operator",
    "Uttut.C78_operator_errors",
    "Uttut.C78_pipe",
    "Uttut.C78_by_hand",
    "Uttut.C78_pipe_errors",
    "Uttut.C78_unchecked_checkpoints"
   ],
   "note": "json.loads is modelled without floats, NaN, Infinity and lone surrogates; on the other texts it is proved equal to a grammar of JSON. The code stores the checkpoint value without looking at it; here only objects of ints are modelled, others are TypeError in the model. C94 has all values."
  },
  {
   "property": "C79",
   "status": "proved",
   "theorems": [
    "Uttut.C79_any_parts",
    "Uttut.C79_numbers",
    "Uttut.C79_merge",
    "Uttut.C79_strip",
    "Uttut.C79_strip_accent",
    "Uttut.C79_stopwords",
    "Uttut.C79_around_words",
    "Uttut.C79_custom_words",
    "Uttut.C79_tokenizers",
    "Uttut.C79_replace",
    "Uttut.C79_subwords",
    "Uttut.C79_strip_exact",
    "Uttut.C79_merge_exact",
    "Uttut.C79_tokenizers_exact",
    "Uttut.C79_ends",
    "Uttut.C79_somehow",
    "Uttut.C79_pipe",
    "Uttut.C79_numbers_exact",
    "Uttut.C79_custom_words_exact"
   ],
   "note": "The conditions for MergeWhiteSpaceCharacters, StripWhiteSpaceCharacters, the tokenizers, CustomWordTokenizer and the number recognisers are exact (the last ones when the decimal digits below code 128 are '0' to '9'), the others sufficient."
  },
  {
   "property": "C80",
   "status": "proved",
   "theorems": [
    "Uttut.Objects.C80_reads",
    "Uttut.Objects.C80_frame",
    "Uttut.Objects.C80_others",
    "Uttut.Objects.C80_raises",
    "Uttut.Objects.C80_create",
    "Uttut.Objects.C80_create_list",
    "Uttut.Objects.C80_datum",
    "Uttut.Objects.C80_set_entity",
    "Uttut.Objects.C80_set_label",
    "Uttut.Objects.C80_set_entity_list",
    "Uttut.Objects.C80_set_intent_list",
    "Uttut.Objects.C80_set_datum",
    "Uttut.Objects.C80_expand",
    "Uttut.Objects.C80_expand_same",
    "Uttut.Objects.C80_expand_independent",
    "Uttut.Objects.C80_pack",
    "Uttut.Objects.C80_copy_intents",
    "Uttut.Objects.C80_valid",
    "Uttut.Objects.C80_unchecked",
    "Uttut.Objects.C80_unbound"
   ],
   "note": "The value semantics of the constructors is that of C43, C46 and C50; adding to or removing from an entity's set in place is modelled as assigning the resulting set; a set object assigned to two entities is not modelled as shared."
  },
  {
   "property": "C81",
   "status": "proved",
   "theorems": [
    "Uttut.C81_humanize",
    "Uttut.C81_machanize",
    "Uttut.C81_data",
    "Uttut.C81_predicted",
    "Uttut.C81_nonzero",
    "Uttut.C81_pack",
    "Uttut.C81_pipe",
    "Uttut.C81_prediction",
    "Uttut.C81_expand"
   ],
   "note": "Names are compared up to the order of intents (labels are sorted) and with entities sorted by start; the conditions for labels to come back through a pipe are those of C73; realigning predicted labels needs the conditions of C59 (`Safe`)."
  },
  {
   "property": "C82",
   "status": "proved",
   "theorems": [
    "Uttut.C82_datum_same",
    "Uttut.C82_humanize_same",
    "Uttut.C82_position",
    "Uttut.C82_overlap",
    "Uttut.C82_position_read",
    "Uttut.C82_humanize",
    "Uttut.C82_join_same",
    "Uttut.C82_join",
    "Uttut.C82_kinds_same",
    "Uttut.C82_kinds",
    "Uttut.C82_add_op",
    "Uttut.C82_names",
    "Uttut.C82_intent_repr",
    "Uttut.C82_entity_repr",
    "Uttut.C82_entity_repr_ambiguous",
    "Uttut.C82_replacement_str",
    "Uttut.C82_kinds_order"
   ],
   "note": "Texts are `args[0]` of the exception. Texts of `Pipe.__iadd__`, `from_raw_dictionary` and the constant texts are not modelled; `repr` of data is in C101."
  },
  {
   "property": "C83",
   "status": "proved",
   "theorems": [
    "Uttut.C83_make",
    "Uttut.C83_unbound",
    "Uttut.C83_now",
    "Uttut.C83_kept",
    "Uttut.C83_saved",
    "Uttut.C83_loaded",
    "Uttut.C83_index",
    "Uttut.C83_hash",
    "Uttut.C83_tokenizer_words",
    "Uttut.C83_around_words",
    "Uttut.C83_subwords",
    "Uttut.C83_words_drift"
   ],
   "note": "Lists and dicts are changed as a whole (any change in place gives some new contents); objects nested in them and the attributes of operators are not changed by programs."
  },
  {
   "property": "C84",
   "status": "proved",
   "theorems": [
    "Uttut.C84_custom_tokenizer",
    "Uttut.C84_around_words",
    "Uttut.C84_sos_eos",
    "Uttut.C84_pad",
    "Uttut.C84_pure_num",
    "Uttut.C84_end_token",
    "Uttut.C84_token2index",
    "Uttut.C84_token2index_hash",
    "Uttut.C84_subwords",
    "Uttut.C84_replace",
    "Uttut.C84_no_number"
   ],
   "note": "Floats, tokens that are neither texts nor numbers, an unk_token of SpanSubwords that is no text and words that are lists, tuples or dicts are not modelled; the exceptions for indices that are several tuples are not exact."
  },
  {
   "property": "C85",
   "status": "proved",
   "theorems": [
    "Uttut.C85_declare",
    "Uttut.C85_left_behind",
    "Uttut.C85_first_wins",
    "Uttut.C85_outcomes",
    "Uttut.C85_loading",
    "Uttut.C85_inherited",
    "Uttut.C85_inherited_reload",
    "Uttut.C85_inherited_pad",
    "Uttut.C85_tokenizer",
    "Uttut.C85_placement",
    "Uttut.C85_misplaced",
    "Uttut.C85_recognizer",
    "Uttut.C85_around",
    "Uttut.C85_aligned",
    "Uttut.C85_pipe",
    "Uttut.C85_arguments"
   ],
   "note": "The author's `_tokenize`, `_is_valid_char` and label functions are functions of their arguments; tokens are texts; a regular expression is any search function meeting the contract of `Pattern.search`. Subclasses that override `_transform` itself are covered by C58-C60 as arbitrary operators only."
  },
  {
   "property": "C86",
   "status": "proved",
   "theorems": [
    "Uttut.C86_unchanged",
    "Uttut.C86_after_change",
    "Uttut.C86_never_other",
    "Uttut.C86_program_forward",
    "Uttut.C86_program_untouched",
    "Uttut.C86_program",
    "Uttut.C86_pipe",
    "Uttut.C86_pipe_unchanged",
    "Uttut.C86_builtin",
    "Uttut.C86_builtin_pipe",
    "Uttut.C86_wrong_type",
    "Uttut.C86_labels",
    "Uttut.C86_label_values",
    "Uttut.C86_inputs_kept",
    "Uttut.C86_change_breaks"
   ],
   "note": "Lists are changed as a whole (any change in place gives some new contents); the store holds token lists, label lists and aligners. That `_tokenize` of the built-in tokenizers returns new lists is read off the code. C86_builtin connects the operators of the store with the built-in classes."
  },
  {
   "property": "C87",
   "status": "proved",
   "theorems": [
    "Uttut.C87_iterate",
    "Uttut.C87_fill",
    "Uttut.C87_items",
    "Uttut.C87_slice",
    "Uttut.C87_independent",
    "Uttut.C87_intermediate",
    "Uttut.C87_edits",
    "Uttut.C87_edited_name",
    "Uttut.C87_unfit",
    "Uttut.C87_self"
   ],
   "note": "The list and the dict are changed as a whole (any change in place gives some new contents); steps are operators and checkpoints ints. C87_edited_name is the witness that names are not stable under changes of the dict."
  },
  {
   "property": "C88",
   "status": "proved",
   "theorems": [
    "Uttut.C88_rounding",
    "Uttut.C88_outcome",
    "Uttut.C88_symmetric",
    "Uttut.C88_bounds",
    "Uttut.C88_one",
    "Uttut.C88_one_fails",
    "Uttut.C88_monotone",
    "Uttut.C88_whole",
    "Uttut.C88_error"
   ],
   "note": "Floats are the numbers m * 2^e with |m| <= 2^53 and any e: overflow, subnormal numbers, infinities and NaN are left out. C88_one_fails is the witness that C51_one does not carry over to floats."
  },
  {
   "property": "C89",
   "status": "proved",
   "theorems": [
    "Uttut.C89_operator",
    "Uttut.C89_pipe",
    "Uttut.C89_unsplit",
    "Uttut.C89_datum",
    "Uttut.C89_entities",
    "Uttut.C89_predicted"
   ],
   "note": "Built-in operators only: an operator written by a user may do with labels what it likes. C89_predicted speaks of the order in which entities take their labels from the predictions, places of two entities with the same label may coincide."
  },
  {
   "property": "C90",
   "status": "proved",
   "theorems": [
    "Uttut.C90_step",
    "Uttut.C90_pipe",
    "Uttut.C90_datum",
    "Uttut.C90_prediction",
    "Uttut.C90_readme"
   ],
   "note": "Arguments of other types than documented, ReplaceAwithB with an empty replacement text and operators written by users are left to C74, C25 and C58. C90_step is the statement for single operators, C90_pipe for pipes. That StripAccentToken and ReplaceAwithB do raise is shown by the findings in DESIGN.md."
  },
  {
   "property": "C91",
   "status": "proved",
   "theorems": [
    "Uttut.C91_operator",
    "Uttut.C91_fromDict",
    "Uttut.C91_deserialize_op",
    "Uttut.C91_add",
    "Uttut.C91_deserialize_pipe",
    "Uttut.C91_transform_sequence",
    "Uttut.C91_transform",
    "Uttut.C91_edit",
    "Uttut.C91_apply_wrong",
    "Uttut.C91_pad_past",
    "Uttut.C91_around_past",
    "Uttut.C91_search_past",
    "Uttut.C91_small",
    "Uttut.C91_assembled",
    "Uttut.C91_addCalls",
    "Uttut.C91_readme"
   ],
   "note": "The limit on input lengths is 2^31 because one edit per element needs 2n + 1 places. Groups of 2^32 and more replacements and memory exhaustion are left out (Model/Machine.lean). C91_apply_wrong, C91_pad_past, C91_around_past and C91_search_past are the witnesses past the limits; C30 itself is stated for maxlen < 2^32."
  },
  {
   "property": "C92",
   "status": "proved",
   "theorems": [
    "Uttut.C92_equal_values",
    "Uttut.C92_equal_arguments",
    "Uttut.C92_operator",
    "Uttut.C92_equivalence",
    "Uttut.C92_pipe",
    "Uttut.C92_pipe_equivalence",
    "Uttut.C92_not_conversely"
   ],
   "note": "Arguments are the values of the model (None, booleans, integers, texts, lists, tuples, dicts with text keys), without floats and NaN, for which == is not reflexive. Dicts have distinct keys (WellKeyed), as all Python dicts. C92_not_conversely is the witness that the converse fails; C85_inherited_pad the one that classes written by users are outside."
  },
  {
   "property": "C93",
   "status": "proved",
   "theorems": [
    "Uttut.C93_restored",
    "Uttut.C93_restored_always"
   ],
   "note": "The two processes use the same Python version (same Unicode tables and regular expressions) and differ in the order of sets. SeedFreeRun says that no empty list reaches AddSosEos (C72)."
  },
  {
   "property": "C94",
   "status": "proved",
   "theorems": [
    "Uttut.C94_loads",
    "Uttut.C94_load_agrees",
    "Uttut.C94_round_trip",
    "Uttut.C94_saved_again",
    "Uttut.C94_transform",
    "Uttut.C94_get",
    "Uttut.C94_add",
    "Uttut.C94_iadd",
    "Uttut.C94_copy",
    "Uttut.C94_slice",
    "Uttut.C94_summary",
    "Uttut.C94_agrees"
   ],
   "note": "JSON values without floats. Values that cannot come from JSON (tuples) are included where nothing changes. C94_agrees connects the two models of pipes."
  },
  {
   "property": "C95",
   "status": "proved",
   "theorems": [
    "Uttut.C95_len",
    "Uttut.C95_eq",
    "Uttut.C95_spans_eq",
    "Uttut.C95_apply",
    "Uttut.C95_inverse",
    "Uttut.C95_reduce",
    "Uttut.C95_expand",
    "Uttut.C95_split",
    "Uttut.C95_join",
    "Uttut.C95_genSpanGroup",
    "Uttut.C95_add",
    "Uttut.C95_bert",
    "Uttut.C95_finished"
   ],
   "note": "The theorems say that the warned versions issue exactly so many warnings and end as the functions of the other properties do. Positions below 2^32. get_dist_bt_replacement_group is modelled as inverse calls it, with a group that is not empty."
  },
  {
   "property": "C96",
   "status": "proved",
   "theorems": [
    "Uttut.C96_same",
    "Uttut.C96_first",
    "Uttut.C96_read",
    "Uttut.C96_read_fail",
    "Uttut.C96_addAll"
   ],
   "note": "The order of the hash set is an order of the replacements without annotations: hash and == do not look at annotations."
  },
  {
   "property": "C97",
   "status": "proved",
   "theorems": [
    "Uttut.C97_gets",
    "Uttut.C97_configs",
    "Uttut.C97_reload",
    "Uttut.C97_kept",
    "Uttut.C97_blind",
    "Uttut.C97_equal",
    "Uttut.C97_unset",
    "Uttut.C97_inherited",
    "Uttut.C97_plain"
   ],
   "note": "Loading is cls(**configs) for a registered class; the way of the values through JSON text is C66. Positional-only parameters are not modelled (Python 3.6 has none). C97_plain: on plain parameters the model is that of C65."
  },
  {
   "property": "C98",
   "status": "proved",
   "theorems": [
    "Uttut.C98_reference",
    "Uttut.C98_basic_exact",
    "Uttut.C98_basic",
    "Uttut.C98_discarded",
    "Uttut.C98_zh",
    "Uttut.C98_subwords",
    "Uttut.C98_word_piece",
    "Uttut.C98_vocab",
    "Uttut.C98_numbers",
    "Uttut.C98_ids",
    "Uttut.C98_full_reference",
    "Uttut.C98_full",
    "Uttut.C98_differ"
   ],
   "note": "The reference tokenizer is the copy in bert/tests/tokenization.py; the categories C and Zs and str.lower are parameters; a character of category Zs is white space for str.split (true of Unicode; hypothesis hz). Agreement is about the tokens; labels are C68. C98_differ: witnesses of the differences on a table holding real Unicode data for the characters concerned."
  },
  {
   "property": "C99",
   "status": "proved",
   "theorems": [
    "Uttut.C99_rounding",
    "Uttut.C99_outcome",
    "Uttut.C99_symmetric",
    "Uttut.C99_finite",
    "Uttut.C99_moderate",
    "Uttut.C99_between",
    "Uttut.C99_unused",
    "Uttut.C99_special",
    "Uttut.C99_int",
    "Uttut.C99_nan"
   ],
   "note": "C99_moderate shows that the simplification of C88 (exponents without bounds) makes no difference. The two zeros and the NaNs are not told apart."
  },
  {
   "property": "C100",
   "status": "proved",
   "theorems": [
    "Uttut.C100_operators",
    "Uttut.C100_pipe"
   ],
   "note": "Classes that override `_transform` itself are not covered; for the edit functions they call see C95."
  },
  {
   "property": "C101",
   "status": "proved",
   "theorems": [
    "Uttut.C101_span",
    "Uttut.C101_replacement",
    "Uttut.C101_replacement_ambiguous",
    "Uttut.C101_groups",
    "Uttut.C101_datum",
    "Uttut.C101_datum_read",
    "Uttut.C101_datum_bare",
    "Uttut.C101_datum_ambiguous"
   ],
   "note": "`pprint.pformat` is modelled from the standard library's source for lists of objects without a layout of their own; replacements of entities and new values are texts."
  },
  {
   "property": "C102",
   "status": "proved",
   "theorems": [
    "Uttut.C102_operator",
    "Uttut.C102_strict",
    "Uttut.C102_steady",
    "Uttut.C102_replace",
    "Uttut.C102_interval",
    "Uttut.C102_pipe",
    "Uttut.C102_datum",
    "Uttut.C102_torn"
   ],
   "note": "Assumes that no decimal digit is white space (true of Unicode) and, for `ReplaceAwithB`, that a search started where a match begins finds this match (`C102_steady` for the modelled regular expressions). That the last sentence holds is shown by `C102_torn`."
  },
  {
   "property": "C103",
   "status": "proved",
   "theorems": [
    "Uttut.C103_operator",
    "Uttut.C103_pipe",
    "Uttut.C103_datum",
    "Uttut.C103_torn"
   ],
   "note": "`C103_datum` is for utterances of less than 2^31 characters, the bound of `C46_pack`. That the last sentence holds is shown by `C103_torn`."
  },
  {
   "property": "C104",
   "status": "proved",
   "theorems": [
    "Uttut.C104_steady",
    "Uttut.C104_around",
    "Uttut.C104_words",
    "Uttut.C104_accent",
    "Uttut.C104_pure_num",
    "Uttut.C104_ends",
    "Uttut.C104_replace",
    "Uttut.C104_subwords",
    "Uttut.C104_subwords_closed",
    "Uttut.C104_index",
    "Uttut.C104_index_hash",
    "Uttut.C104_types",
    "Uttut.C104_pipe",
    "Uttut.C104_clean"
   ],
   "note": "`C104_steady` assumes of the Unicode tables that the space is no punctuation, '.' no digit and the ASCII digits are 0-9. `C104_ends` is for lists of less than 2^32 - 2 tokens, `C104_index`, `C104_index_hash` for a first call that returns, `C104_subwords` for an unknown token that is not empty."
  },
  {
   "property": "C105",
   "status": "proved",
   "theorems": [
    "Uttut.C105_operator",
    "Uttut.C105_pipe",
    "Uttut.C105_datum",
    "Uttut.C105_pack",
    "Uttut.C105_predicted",
    "Uttut.C105_exchange",
    "Uttut.C105_merge",
    "Uttut.C105_moved_zero",
    "Uttut.C105_negative"
   ],
   "note": "Built-in operators only; an operator written by a user may look at the numbers. `C105_merge`, `C105_moved_zero`, `C105_negative` are the cases in which a condition on the numbers fails."
  },
  {
   "property": "C106",
   "status": "proved",
   "theorems": [
    "Uttut.C106_variants",
    "Uttut.C106_all",
    "Uttut.C106_distinct",
    "Uttut.C106_labels",
    "Uttut.C106_again"
   ],
   "note": "For data whose entities lie within the utterance and whose labels fit in a C int (`Extensible`), and calls that return; when a call returns is C50. `C106_again` is for data with entities; without, the datum is returned as it is (C50)."
  },
  {
   "property": "C107",
   "status": "proved",
   "theorems": [
    "Uttut.C107_order",
    "Uttut.C107_order_pipe",
    "Uttut.C107_entities",
    "Uttut.C107_renumber",
    "Uttut.C107_renumber_pipe",
    "Uttut.C107_renumber_datum",
    "Uttut.C107_functions",
    "Uttut.C107_needed"
   ],
   "note": "The label functions are functions of the labels and the length asked for, and return that many labels; one that raises an exception is not covered here (C85)."
  },
  {
   "property": "C108",
   "status": "proved",
   "theorems": [
    "Uttut.C108_size",
    "Uttut.C108_framed",
    "Uttut.C108_ignored",
    "Uttut.C108_round_trip",
    "Uttut.C108_end_token",
    "Uttut.C108_empty",
    "Uttut.C108_empty_both",
    "Uttut.C108_ended",
    "Uttut.C108_ended_round_trip",
    "Uttut.C108_size_hash"
   ],
   "note": "C108_size needs no condition on the tokens; C108_empty_both is the witness that both orders occur."
  },
  {
   "property": "C109",
   "status": "proved",
   "theorems": [
    "Uttut.C109_determined",
    "Uttut.C109_spacing",
    "Uttut.C109_tokens",
    "Uttut.C109_same_tokens",
    "Uttut.C109_needed"
   ],
   "note": "Assumes that no character of Unicode category P is white space (true of Unicode)."
  },
  {
   "property": "C110",
   "status": "proved",
   "theorems": [
    "Uttut.C110_tokens",
    "Uttut.C110_same",
    "Uttut.C110_order",
    "Uttut.C110_normal",
    "Uttut.C110_normal_form",
    "Uttut.C110_words_differ"
   ],
   "note": "Assumes that no character of Unicode category P is white space or an ASCII letter (true of Unicode). C110_words_differ is the witness for AddWhitespaceAroundWordnZhChar."
  },
  {
   "property": "C111",
   "status": "proved",
   "theorems": [
    "Uttut.C111_frame",
    "Uttut.C111_frame_all",
    "Uttut.C111_in_pipe",
    "Uttut.C111_cut",
    "Uttut.C111_end_token"
   ],
   "note": "C111_cut is the witness for a Pad that cuts off tokens that cannot be translated."
  },
  {
   "property": "C112",
   "status": "proved",
   "theorems": [
    "Uttut.C112_labels",
    "Uttut.C112_operator",
    "Uttut.C112_pipe"
   ],
   "note": "Texts are lists of Unicode scalar values: lone surrogates are not modelled."
  },
  {
   "property": "C113",
   "status": "proved",
   "theorems": [
    "Uttut.C113_swap",
    "Uttut.C113_numbers",
    "Uttut.C113_order",
    "Uttut.C113_pairs",
    "Uttut.C113_needed",
    "Uttut.C113_exact"
   ],
   "note": "C113_exact also assumes that no character is both a digit and a punctuation mark. The character classes are those of C16-C21 and C26. The list of pairs assumes that the Unicode table is usual (digits are neither white space nor ideographs, punctuation marks neither letters, white space nor ideographs); swapping itself assumes only that '.' is no digit, and for integers with decimals that the ASCII digits are right."
  },
  {
   "property": "C114",
   "status": "proved",
   "theorems": [
    "Uttut.C114_lowercase",
    "Uttut.C114_punctuation",
    "Uttut.C114_around",
    "Uttut.C114_merge",
    "Uttut.C114_strip",
    "Uttut.C114_numbers",
    "Uttut.C114_token",
    "Uttut.C114_lossless_tokens",
    "Uttut.C114_words",
    "Uttut.C114_framed",
    "Uttut.C114_pad",
    "Uttut.C114_pure_num",
    "Uttut.C114_index",
    "Uttut.C114_hash",
    "Uttut.C114_pipe",
    "Uttut.C114_stays"
   ],
   "note": "Hypotheses on the Unicode table: the blank is no punctuation (white space around marks), the point no digit (number recognisers). C114_numbers is one direction only: the statement claims no more, because the literal token gives further pairs (C114_token). C114_pure_num and C114_hash are about tokens that are texts; for Token2IndexwithHash the listed token depends on the hash, of which only the value below the size of the mapping is used."
  },
  {
   "property": "C115",
   "status": "proved",
   "theorems": [
    "Uttut.C115_words",
    "Uttut.C115_occurs",
    "Uttut.C115_breaks",
    "Uttut.C115_subwords",
    "Uttut.C115_subwords_kept",
    "Uttut.C115_unknown",
    "Uttut.C115_index",
    "Uttut.C115_hash",
    "Uttut.C115_hash_moves",
    "Uttut.C115_pipe",
    "Uttut.C115_data",
    "Uttut.C115_data_front"
   ],
   "note": "The old and the new list may be given in any of the forms the operator accepts; only which words they hold matters. Mappings of Token2Index are dicts with integers and each key once. In C115_data the reserved name __NOT_ENTITY__ is not the name of an entity. C115_breaks, C115_unknown, C115_hash_moves and C115_data_front are the witnesses of what can change."
  },
  {
   "property": "C116",
   "status": "proved",
   "theorems": [
    "Uttut.C116_down",
    "Uttut.C116_up",
    "Uttut.C116_length"
   ],
   "note": "C116_down and C116_up are about lists of tokens, also for a first length m below 2^32 only, because the second Pad is given m tokens."
  },
  {
   "property": "C117",
   "status": "proved",
   "theorems": [
    "Uttut.C117_lowercase",
    "Uttut.C117_punctuation",
    "Uttut.C117_merge",
    "Uttut.C117_strip",
    "Uttut.C117_numbers",
    "Uttut.C117_stopwords",
    "Uttut.C117_words",
    "Uttut.C117_alone",
    "Uttut.C117_pad",
    "Uttut.C117_index",
    "Uttut.C117_hash",
    "Uttut.C117_pure_num",
    "Uttut.C117_pipe"
   ],
   "note": "About Unicode: a blank is no punctuation mark (C117_punctuation), the ASCII decimal digits are 0-9 (C117_numbers), 0 is a digit (C117_pure_num)."
  },
  {
   "property": "C118",
   "status": "proved",
   "theorems": [
    "Uttut.C118_read_back",
    "Uttut.C118_covered",
    "Uttut.C118_same_pieces",
    "Uttut.C118_again",
    "Uttut.C118_plain",
    "Uttut.C118_pipe",
    "Uttut.C118_bert",
    "Uttut.C118_limits"
   ],
   "note": "C118_bert is for texts on which stripping accents works character by character and makes no #; C118_limits shows that the conditions on the words and on the unknown token are needed."
  },
  {
   "property": "C119",
   "status": "proved",
   "theorems": [
    "Uttut.C119_pipe",
    "Uttut.C119_returns",
    "Uttut.C119_keeps",
    "Uttut.C119_moves",
    "Uttut.C119_bert_basic",
    "Uttut.C119_bert_pieces",
    "Uttut.C119_bert_full",
    "Uttut.C119_datum",
    "Uttut.C119_predicted",
    "Uttut.C119_predicted_builtin",
    "Uttut.C119_model",
    "Uttut.C119_returns_only",
    "Uttut.C119_keeps_only",
    "Uttut.C119_spreads_only",
    "Uttut.C119_order",
    "Uttut.C119_moves_stopwords",
    "Uttut.C119_moves_words",
    "Uttut.C119_spread_pipe",
    "Uttut.C119_spreads"
   ],
   "note": "C119_bert_basic and C119_bert_full are for texts on which stripping accents works character by character. That combinations of other steps need not settle is C73_pipe_unsettled."
  }
 ]
}
