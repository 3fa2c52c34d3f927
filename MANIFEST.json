{
 "claims": [
  {
   "property": "C01",
   "status": "proved",
   "theorems": [
    "Props.C01_compose_decompose",
    "Props.C01_decompose_compose",
    "Props.C01_compose_rejects"
   ],
   "note": ""
  },
  {
   "property": "C02",
   "status": "proved",
   "theorems": [
    "Props.C02_decompose_cases",
    "Props.C02_decompose_injective",
    "Props.C02_classes",
    "Props.C02_ascii"
   ],
   "note": ""
  },
  {
   "property": "C03",
   "status": "proved",
   "theorems": [
    "Props.C03_roundtrip",
    "Props.C03_indices",
    "Props.C03_encode_rows",
    "Props.C03_encode_length"
   ],
   "note": ""
  },
  {
   "property": "C04",
   "status": "proved",
   "theorems": [
    "Props.C04_normalize_runs",
    "Props.C04_normalize_alphabet",
    "Props.C04_normalize_keeps",
    "Props.C04_normalize_idempotent",
    "Props.C04_normalize_repeat"
   ],
   "note": ""
  },
  {
   "property": "C05",
   "status": "proved",
   "theorems": [
    "Props.C05_least_edits",
    "Props.C05_metric",
    "Props.C05_bounds"
   ],
   "note": ""
  },
  {
   "property": "C06",
   "status": "proved",
   "theorems": [
    "Props.C06_custom_cost",
    "Props.C06_cost_ignored_when_shorter",
    "Props.C06_violated"
   ],
   "note": "The naive claim (cost honoured in both orders) is refuted by C06_violated; both cases are characterised exactly for all strings and tables."
  },
  {
   "property": "C07",
   "status": "proved",
   "theorems": [
    "Props.C07_least",
    "Props.C07_metric",
    "Props.C07_le_levenshtein",
    "Props.C07_replace_cost",
    "Props.C07_syllables_exact"
   ],
   "note": ""
  },
  {
   "property": "C08",
   "status": "proved",
   "theorems": [
    "Props.C08_jaccard_empty",
    "Props.C08_jaccard_symm",
    "Props.C08_jaccard_range",
    "Props.C08_cosine_empty",
    "Props.C08_cosine_value",
    "Props.C08_cosine_symm",
    "Props.C08_cosine_range",
    "Props.C08_cosine_one"
   ],
   "note": ""
  },
  {
   "property": "C09",
   "status": "proved",
   "theorems": [
    "Props.C09_normalize_runs",
    "Props.C09_normalize_repeat",
    "Props.C09_normalize_alphabet",
    "Props.C09_only"
   ],
   "note": ""
  },
  {
   "property": "C10",
   "status": "proved",
   "theorems": [
    "Props.C10_repeat_runs",
    "Props.C10_runs_exist",
    "Props.C10_zero",
    "Props.C10_no_long_run",
    "Props.C10_idempotent"
   ],
   "note": ""
  },
  {
   "property": "C11",
   "status": "proved",
   "theorems": [
    "Props.C11_total",
    "Props.C11_same_letters",
    "Props.C11_no_free_consonant",
    "Props.C11_rewritten",
    "Props.C11_violated"
   ],
   "note": "C11_rewritten gives the exact and unique rewriting for all texts (Spec/Emoticon.lean); C11_violated refutes the naive claim."
  },
  {
   "property": "C12",
   "status": "proved",
   "theorems": [
    "Props.C12_pieces",
    "Props.C12_result"
   ],
   "note": ""
  },
  {
   "property": "C13",
   "status": "proved",
   "theorems": [
    "Props.C13_best_left",
    "Props.C13_pairs_lossless",
    "Props.C13_unique",
    "Props.C13_flat_lossless",
    "Props.C13_remove_r"
   ],
   "note": ""
  },
  {
   "property": "C14",
   "status": "proved",
   "theorems": [
    "Props.C14_tiles",
    "Props.C14_lossless",
    "Props.C14_short_max_length"
   ],
   "note": ""
  },
  {
   "property": "C15",
   "status": "proved",
   "theorems": [
    "Props.C15_best_is_output",
    "Props.C15_greedy",
    "Props.C15_exact",
    "Props.C15_choice_unique",
    "Props.C15_short"
   ],
   "note": ""
  },
  {
   "property": "C16",
   "status": "proved",
   "theorems": [
    "Props.C16_exact",
    "Props.C16_regex_lossless"
   ],
   "note": ""
  },
  {
   "property": "C17",
   "status": "proved",
   "theorems": [
    "Props.C17_numbers",
    "Props.C17_scripts_separated",
    "Props.C17_tokens_pure"
   ],
   "note": ""
  },
  {
   "property": "C18",
   "status": "proved",
   "theorems": [
    "Props.C18_left_chains",
    "Props.C18_words_are_nouns"
   ],
   "note": ""
  },
  {
   "property": "C19",
   "status": "proved",
   "theorems": [
    "Props.C19_positive_groups",
    "Props.C19_unflattened_scores_violated"
   ],
   "note": ""
  },
  {
   "property": "C20",
   "status": "proved",
   "theorems": [
    "Props.C20_spells_up_to_repeat",
    "Props.C20_lossless_without_R",
    "Props.C20_violated",
    "Props.C20_lone_R_raises",
    "Props.C20_never_ends_in_R"
   ],
   "note": "The naive claim is refuted by C20_violated and C20_lone_R_raises; the statement given is proved for all configurations, and C62 characterises the result exactly."
  },
  {
   "property": "C21",
   "status": "proved",
   "theorems": [
    "Props.C21_checkpoints",
    "Props.C21_exact",
    "Props.C21_bounds",
    "Props.C21_loss",
    "Props.C21_order",
    "Props.C21_empty"
   ],
   "note": ""
  },
  {
   "property": "C22",
   "status": "proved",
   "theorems": [
    "Props.C22_roundtrip",
    "Props.C22_file",
    "Props.C22_counted",
    "Props.C22_load",
    "Props.C22_load_error"
   ],
   "note": ""
  },
  {
   "property": "C23",
   "status": "proved",
   "theorems": [
    "Props.C23_coverage",
    "Props.C23_empty",
    "Props.C23_fresh",
    "Props.C23_uncovered"
   ],
   "note": ""
  },
  {
   "property": "C24",
   "status": "proved",
   "theorems": [
    "Props.C24_default_topk",
    "Props.C24_add_eojeol",
    "Props.C24_transposed",
    "Props.C24_ranking",
    "Props.C24_add"
   ],
   "note": ""
  },
  {
   "property": "C25",
   "status": "proved",
   "theorems": [
    "Props.C25_copy",
    "Props.C25_copy_raises",
    "Props.C25_reset",
    "Props.C25_frozen"
   ],
   "note": ""
  },
  {
   "property": "C26",
   "status": "proved",
   "theorems": [
    "Props.C26_counts",
    "Props.C26_back",
    "Props.C26_sents_weighted",
    "Props.C26_sents_exact"
   ],
   "note": ""
  },
  {
   "property": "C27",
   "status": "proved",
   "theorems": [
    "Props.C27_load",
    "Props.C27_load_error",
    "Props.C27_roundtrip",
    "Props.C27_empty",
    "Props.C27_frozen"
   ],
   "note": ""
  },
  {
   "property": "C28",
   "status": "proved",
   "theorems": [
    "Props.C28_remove_pair",
    "Props.C28_remove"
   ],
   "note": ""
  },
  {
   "property": "C29",
   "status": "proved",
   "theorems": [
    "Props.C29_documents",
    "Props.C29_sentences",
    "Props.C29_zero_violation",
    "Props.C29_counted",
    "Props.C29_short",
    "Props.C29_no_document"
   ],
   "note": ""
  },
  {
   "property": "C30",
   "status": "proved",
   "theorems": [
    "Props.C30_pruned_exact",
    "Props.C30_counts",
    "Props.C30_order",
    "Props.C30_cumulate",
    "Props.C30_pruned",
    "Props.C30_empty",
    "Props.C30_history"
   ],
   "note": ""
  },
  {
   "property": "C31",
   "status": "proved",
   "theorems": [
    "Props.C31_cohesion"
   ],
   "note": ""
  },
  {
   "property": "C32",
   "status": "proved",
   "theorems": [
    "Props.C32_batch",
    "Props.C32_accessor_variety",
    "Props.C32_branching_entropy",
    "Props.C32_meaning"
   ],
   "note": ""
  },
  {
   "property": "C33",
   "status": "proved",
   "theorems": [
    "Props.C33_counts",
    "Props.C33_exact",
    "Props.C33_filtered",
    "Props.C33_topk_ignored",
    "Props.C33_errors",
    "Props.C33_pmi",
    "Props.C33_mikolov",
    "Props.C33_extract"
   ],
   "note": ""
  },
  {
   "property": "C34",
   "status": "proved",
   "theorems": [
    "Props.C34_parameters",
    "Props.C34_bijection",
    "Props.C34_selection",
    "Props.C34_empty",
    "Props.C34_list_roundtrip",
    "Props.C34_decode_total",
    "Props.C34_bow_roundtrip"
   ],
   "note": ""
  },
  {
   "property": "C35",
   "status": "proved",
   "theorems": [
    "Props.C35_file_matches_transform",
    "Props.C35_fit_to_file"
   ],
   "note": ""
  },
  {
   "property": "C36",
   "status": "proved",
   "theorems": [
    "Props.C36_save_load",
    "Props.C36_load",
    "Props.C36_file"
   ],
   "note": ""
  },
  {
   "property": "C37",
   "status": "proved",
   "theorems": [
    "Props.C37_matrix",
    "Props.C37_failures",
    "Props.C37_stored",
    "Props.C37_failure_iff",
    "Props.C37_shape"
   ],
   "note": ""
  },
  {
   "property": "C38",
   "status": "proved",
   "theorems": [
    "Props.C38_max_length",
    "Props.C38_get_pos",
    "Props.C38_add",
    "Props.C38_remove",
    "Props.C38_unshared",
    "Props.C38_create",
    "Props.C38_add_outcome",
    "Props.C38_remove_outcome",
    "Props.C38_aliasing",
    "Props.C38_save_load"
   ],
   "note": ""
  },
  {
   "property": "C39",
   "status": "proved",
   "theorems": [
    "Props.C39_generate",
    "Props.C39_selection",
    "Props.C39_tag",
    "Props.C39_lossless_in_order",
    "Props.C39_length",
    "Props.C39_lossless_iff",
    "Props.C39_lossless_single",
    "Props.C39_tags",
    "Props.C39_vanishes",
    "Props.C39_not_lossless",
    "Props.C39_generate_order",
    "Props.C39_selected"
   ],
   "note": "The naive losslessness claim is refuted by C39_not_lossless; C39_lossless_iff says exactly when it holds."
  },
  {
   "property": "C40",
   "status": "proved",
   "theorems": [
    "Props.C40_candidates",
    "Props.C40_complete",
    "Props.C40_compound_greedy",
    "Props.C40_select_best",
    "Props.C40_tag",
    "Props.C40_compound",
    "Props.C40_exact"
   ],
   "note": ""
  },
  {
   "property": "C41",
   "status": "proved",
   "theorems": [
    "Props.C41_sound",
    "Props.C41_succeeds_iff",
    "Props.C41_monotone"
   ],
   "note": ""
  },
  {
   "property": "C42",
   "status": "proved",
   "theorems": [
    "Props.C42_boundary"
   ],
   "note": ""
  },
  {
   "property": "C43",
   "status": "proved",
   "theorems": [
    "Props.C43_total",
    "Props.C43_raises",
    "Props.C43_rejects",
    "Props.C43_vowel",
    "Props.C43_chat",
    "Props.C43_consonant_stem",
    "Props.C43_vowel_stem",
    "Props.C43_chat_raises"
   ],
   "note": ""
  },
  {
   "property": "C44",
   "status": "proved",
   "theorems": [
    "Props.C44_recovers",
    "Props.C44_lost",
    "Props.C44_exact"
   ],
   "note": ""
  },
  {
   "property": "C45",
   "status": "proved",
   "theorems": [
    "Props.C45_train",
    "Props.C45_frequency",
    "Props.C45_cohesion_exact",
    "Props.C45_extracted",
    "Props.C45_scans_agree",
    "Props.C45_scans_differ"
   ],
   "note": ""
  },
  {
   "property": "C46",
   "status": "proved",
   "theorems": [
    "Props.C46_v2_totals",
    "Props.C46_v2_bounds",
    "Props.C46_v2_evidence",
    "Props.C46_v1_mean",
    "Props.C46_v1_few",
    "Props.C46_v1_fallback",
    "Props.C46_v1_is_noun",
    "Props.C46_v2_few",
    "Props.C46_v2_untrained"
   ],
   "note": ""
  },
  {
   "property": "C47",
   "status": "proved",
   "theorems": [
    "Props.C47_tables",
    "Props.C47_detaching",
    "Props.C47_ignoring",
    "Props.C47_nj",
    "Props.C47_nj_frozen",
    "Props.C47_pipeline_only_removes",
    "Props.C47_chosen_methods_rejected",
    "Props.C47_default_pipeline"
   ],
   "note": ""
  },
  {
   "property": "C48",
   "status": "proved",
   "theorems": [
    "Props.C48_result",
    "Props.C48_deterministic",
    "Props.C48_swapped",
    "Props.C48_extractor"
   ],
   "note": ""
  },
  {
   "property": "C49",
   "status": "proved",
   "theorems": [
    "Props.C49_decompose",
    "Props.C49_decompose_exact",
    "Props.C49_compounds",
    "Props.C49_combined",
    "Props.C49_dropped",
    "Props.C49_total",
    "Props.C49_never_reported",
    "Props.C49_decomposer"
   ],
   "note": ""
  },
  {
   "property": "C50",
   "status": "proved",
   "theorems": [
    "Props.C50_partition",
    "Props.C50_total",
    "Props.C50_total_syllables"
   ],
   "note": ""
  },
  {
   "property": "C51",
   "status": "proved",
   "theorems": [
    "Props.C51_without_s",
    "Props.C51_english_words_whole_violated",
    "Props.C51_latin_tokens",
    "Props.C51_word",
    "Props.C51_runs"
   ],
   "note": "The naive claim is refuted by C51_english_words_whole_violated; C51_latin_tokens and C51_word give the exact rule."
  },
  {
   "property": "C52",
   "status": "proved",
   "theorems": [
    "Props.C52_short_nouns_lost_violated",
    "Props.C52_whole_eojeol"
   ],
   "note": "The naive claim is refuted for short eojeols for all tables; C52_whole_eojeol is the exact condition."
  },
  {
   "property": "C53",
   "status": "proved",
   "theorems": [
    "Props.C53_extract",
    "Props.C53_positive",
    "Props.C53_word_scores"
   ],
   "note": ""
  },
  {
   "property": "C54",
   "status": "proved",
   "theorems": [
    "Props.C54_unique",
    "Props.C54_supports",
    "Props.C54_extract",
    "Props.C54_sentences",
    "Props.C54_nouns",
    "Props.C54_graph",
    "Props.C54_graph_checkpoints",
    "Props.C54_graph_exact"
   ],
   "note": ""
  },
  {
   "property": "C55",
   "status": "proved",
   "theorems": [
    "Props.C55_v2_load",
    "Props.C55_v2_append",
    "Props.C55_v2_disjoint",
    "Props.C55_v2_disjoint_others",
    "Props.C55_v1_load"
   ],
   "note": ""
  },
  {
   "property": "C56",
   "status": "proved",
   "theorems": [
    "Props.C56_extract_any",
    "Props.C56_extract",
    "Props.C56_total",
    "Props.C56_untrained",
    "Props.C56_sound",
    "Props.C56_construct",
    "Props.C56_train_counter",
    "Props.C56_train_sentences",
    "Props.C56_train_lrgraph",
    "Props.C56_lost_violation",
    "Props.C56_order_violation"
   ],
   "note": ""
  },
  {
   "property": "C57",
   "status": "proved",
   "theorems": [
    "Props.C57_forms",
    "Props.C57_h_merge_violation",
    "Props.C57_bare",
    "Props.C57_harmony",
    "Props.C57_chat",
    "Props.C57_chat_empty"
   ],
   "note": ""
  },
  {
   "property": "C58",
   "status": "proved",
   "theorems": [
    "Props.C58_surfaces",
    "Props.C58_raises",
    "Props.C58_cover",
    "Props.C58_i_missed",
    "Props.C58_cover_bare"
   ],
   "note": ""
  },
  {
   "property": "C59",
   "status": "proved",
   "theorems": [
    "Props.C59_unique",
    "Props.C59_extract",
    "Props.C59_sound",
    "Props.C59_predict_unusable"
   ],
   "note": ""
  },
  {
   "property": "C60",
   "status": "proved",
   "theorems": [
    "Props.C60_known",
    "Props.C60_predict",
    "Props.C60_surfaces",
    "Props.C60_extract",
    "Props.C60_order",
    "Props.C60_again",
    "Props.C60_sound",
    "Props.C60_known_lost"
   ],
   "note": ""
  },
  {
   "property": "C61",
   "status": "proved",
   "theorems": [
    "Props.C61_learn",
    "Props.C61_raises"
   ],
   "note": ""
  },
  {
   "property": "C62",
   "status": "proved",
   "theorems": [
    "Props.C62_tokens",
    "Props.C62_no_zero_division",
    "Props.C62_preferred",
    "Props.C62_construct"
   ],
   "note": ""
  },
  {
   "property": "C63",
   "status": "proved",
   "theorems": [
    "Props.C63_preferred"
   ],
   "note": ""
  },
  {
   "property": "C64",
   "status": "proved",
   "theorems": [
    "Props.C64_neighbours",
    "Props.C64_history",
    "Props.C64_history_ok"
   ],
   "note": ""
  },
  {
   "property": "C65",
   "status": "proved",
   "theorems": [
    "Props.C65_chat",
    "Props.C65_sound",
    "Props.C65_default"
   ],
   "note": ""
  },
  {
   "property": "C66",
   "status": "proved",
   "theorems": [
    "Props.C66_left",
    "Props.C66_right"
   ],
   "note": ""
  },
  {
   "property": "C67",
   "status": "proved",
   "theorems": [
    "Props.C67_pmi",
    "Props.C67_distributions",
    "Props.C67_scale",
    "Props.C67_symmetric",
    "Props.C67_beta",
    "Props.C67_memory_friendly"
   ],
   "note": ""
  },
  {
   "property": "C68",
   "status": "proved",
   "theorems": [
    "Props.C68_roundtrip",
    "Props.C68_resume"
   ],
   "note": ""
  },
  {
   "property": "C69",
   "status": "proved",
   "theorems": [
    "Props.C69_disjoint",
    "Props.C69_irrecognizable",
    "Props.C69_coverage",
    "Props.C69_irrecognizable_iff"
   ],
   "note": ""
  },
  {
   "property": "C70",
   "status": "proved",
   "theorems": [
    "Props.C70_adverb",
    "Props.C70_adjective",
    "Props.C70_verb",
    "Props.C70_noun",
    "Props.C70_noun_overcount",
    "Props.C70_adjective_exact",
    "Props.C70_verb_exact",
    "Props.C70_noun_exact"
   ],
   "note": ""
  },
  {
   "property": "C71",
   "status": "proved",
   "theorems": [
    "Props.C71_noun_iff",
    "Props.C71_confused_iff",
    "Props.C71_adjective_iff",
    "Props.C71_verb_iff",
    "Props.C71_adjective",
    "Props.C71_verb",
    "Props.C71_irrecognizable",
    "Props.C71_stems",
    "Props.C71_noun"
   ],
   "note": ""
  },
  {
   "property": "C72",
   "status": "proved",
   "theorems": [
    "Props.C72_raises_iff",
    "Props.C72_total",
    "Props.C72_stem_to_adverb",
    "Props.C72_raises",
    "Props.C72_second_call",
    "Props.C72_verbose"
   ],
   "note": ""
  },
  {
   "property": "C73",
   "status": "proved",
   "theorems": [
    "Props.C73_disjoint",
    "Props.C73_noun",
    "Props.C73_irrecognizable"
   ],
   "note": ""
  },
  {
   "property": "C74",
   "status": "proved",
   "theorems": [
    "Props.C74_frequencies_exact",
    "Props.C74_tables",
    "Props.C74_frequencies",
    "Props.C74_raises_iff",
    "Props.C74_total"
   ],
   "note": ""
  },
  {
   "property": "C75",
   "status": "proved",
   "theorems": [
    "Props.C75_words",
    "Props.C75_unique",
    "Props.C75_letters"
   ],
   "note": ""
  },
  {
   "property": "C76",
   "status": "proved",
   "theorems": [
    "Props.C76_runs",
    "Props.C76_length",
    "Props.C76_untouched",
    "Props.C76_expands",
    "Props.C76_not_idempotent"
   ],
   "note": ""
  },
  {
   "property": "C77",
   "status": "proved",
   "theorems": [
    "Props.C77_train",
    "Props.C77_transposed",
    "Props.C77_replaces",
    "Props.C77_order",
    "Props.C77_empty"
   ],
   "note": ""
  },
  {
   "property": "C78",
   "status": "proved",
   "theorems": [
    "Props.C78_predict",
    "Props.C78_no_empty_right_part",
    "Props.C78_bounds"
   ],
   "note": ""
  },
  {
   "property": "C79",
   "status": "proved",
   "theorems": [
    "Props.C79_extract",
    "Props.C79_unique",
    "Props.C79_kept",
    "Props.C79_returned",
    "Props.C79_defaults",
    "Props.C79_train_extract"
   ],
   "note": ""
  },
  {
   "property": "C80",
   "status": "proved",
   "theorems": [
    "Props.C80_min_feature_proportion",
    "Props.C80_base_dictionary",
    "Props.C80_extract_first",
    "Props.C80_raises",
    "Props.C80_empty"
   ],
   "note": ""
  },
  {
   "property": "C81",
   "status": "proved",
   "theorems": [
    "Props.C81_tokenizer",
    "Props.C81_normalize",
    "Props.C81_repeat_normalize",
    "Props.C81_only",
    "Props.C81_remain_hangle_on_last",
    "Props.C81_lrgraph",
    "Props.C81_hangle",
    "Props.C81_token_normalize"
   ],
   "note": ""
  },
  {
   "property": "C82",
   "status": "proved",
   "theorems": [
    "Props.C82_counts",
    "Props.C82_trained",
    "Props.C82_succeeds",
    "Props.C82_extracts",
    "Props.C82_lemmas",
    "Props.C82_frequencies"
   ],
   "note": "Packaged dictionaries are parameters; state after a raise not modelled. Exact frequencies need min_eojeol_frequency <= 1 or at most 500000 sentences (C21 gives bounds otherwise)."
  },
  {
   "property": "C83",
   "status": "proved",
   "theorems": [
    "Props.C83_trains",
    "Props.C83_raises"
   ],
   "note": ""
  },
  {
   "property": "C84",
   "status": "proved",
   "theorems": [
    "Props.C84_trained",
    "Props.C84_roundtrip",
    "Props.C84_untrained",
    "Props.C84_malformed",
    "Props.C84_loads_iff"
   ],
   "note": ""
  },
  {
   "property": "C85",
   "status": "proved",
   "theorems": [
    "Props.C85_sort",
    "Props.C85_check_dirs",
    "Props.C85_unknown",
    "Props.C85_bad_index",
    "Props.C85_similar"
   ],
   "note": ""
  },
  {
   "property": "C86",
   "status": "proved",
   "theorems": [
    "Props.C86_load_freq",
    "Props.C86_load_adverbs",
    "Props.C86_packaged",
    "Props.C86_conjugates",
    "Props.C86_trains"
   ],
   "note": ""
  },
  {
   "property": "C87",
   "status": "proved",
   "theorems": [
    "Props.C87_default_choice",
    "Props.C87_deterministic",
    "Props.C87_long_compound"
   ],
   "note": ""
  },
  {
   "property": "C88",
   "status": "proved",
   "theorems": [
    "Props.C88_score",
    "Props.C88_verb_weight",
    "Props.C88_default_score",
    "Props.C88_noun_phrase",
    "Props.C88_noun_loses"
   ],
   "note": ""
  },
  {
   "property": "C89",
   "status": "proved",
   "theorems": [
    "Props.C89_independent",
    "Props.C89_new_separate",
    "Props.C89_shared",
    "Props.C89_shared_broken"
   ],
   "note": ""
  },
  {
   "property": "C90",
   "status": "proved",
   "theorems": [
    "Props.C90_refused",
    "Props.C90_list",
    "Props.C90_file",
    "Props.C90_bigrams",
    "Props.C90_patterns",
    "Props.C90_fit_transform",
    "Props.C90_to_file",
    "Props.C90_fit_to_file",
    "Props.C90_contexts"
   ],
   "note": ""
  },
  {
   "property": "C91",
   "status": "proved",
   "theorems": [
    "Props.C91_v1",
    "Props.C91_v2",
    "Props.C91_eomis",
    "Props.C91_predicators",
    "Props.C91_predicators_violation"
   ],
   "note": ""
  },
  {
   "property": "C92",
   "status": "proved",
   "theorems": [
    "Props.C92_routes",
    "Props.C92_train_extract",
    "Props.C92_defaults",
    "Props.C92_restores",
    "Props.C92_shared",
    "Props.C92_shared_violation"
   ],
   "note": ""
  },
  {
   "property": "C93",
   "status": "proved",
   "theorems": [
    "Props.C93_routes",
    "Props.C93_train_extract",
    "Props.C93_defaults",
    "Props.C93_again",
    "Props.C93_end_to_end",
    "Props.C93_succeeds"
   ],
   "note": "extract with words supplied by the caller is C56; the learning stages one by one are C58-C61. The state left behind by a call that raises is not modelled."
  },
  {
   "property": "C94",
   "status": "proved",
   "theorems": [
    "Props.C94_end_to_end",
    "Props.C94_defaults"
   ],
   "note": ""
  },
  {
   "property": "C95",
   "status": "proved",
   "theorems": [
    "Props.C95_post",
    "Props.C95_default",
    "Props.C95_transparent",
    "Props.C95_extract",
    "Props.C95_eomi"
   ],
   "note": "files as decoded text in an existing writable directory; the printing of numbers is a parameter"
  },
  {
   "property": "C96",
   "status": "proved",
   "theorems": [
    "Props.C96_never",
    "Props.C96_trained"
   ],
   "note": ""
  },
  {
   "property": "C97",
   "status": "proved",
   "theorems": [
    "Props.C97_train",
    "Props.C97_extract",
    "Props.C97_independent",
    "Props.C97_new",
    "Props.C97_shared"
   ],
   "note": ""
  },
  {
   "property": "C98",
   "status": "proved",
   "theorems": [
    "Props.C98_counter",
    "Props.C98_graph",
    "Props.C98_vocab",
    "Props.C98_lost_digit",
    "Props.C98_wrong_pair",
    "Props.C98_wrong_index"
   ],
   "note": ""
  },
  {
   "property": "C99",
   "status": "proved",
   "theorems": [
    "Props.C99_steady",
    "Props.C99_steady_predicator",
    "Props.C99_untouched",
    "Props.C99_empty",
    "Props.C99_predicator_learning",
    "Props.C99_second_reading",
    "Props.C99_second_reading_extract",
    "Props.C99_read_once",
    "Props.C99_resume",
    "Props.C99_read_part",
    "Props.C99_bigram",
    "Props.C99_bigram_scores"
   ],
   "note": "The exception falls between two sentences (raised by the corpus' iterator). A Bigram object whose first training fails has no _unigram attribute; the theorem only says that scoring raises."
  },
  {
   "property": "C100",
   "status": "proved",
   "theorems": [
    "Props.C100_same",
    "Props.C100_kept",
    "Props.C100_frozen",
    "Props.C100_frozen_singles",
    "Props.C100_empty"
   ],
   "note": "For the frozen cases extract_pos_feature=False and training by an eojeol counter (training on sentences goes through one). I/O errors of log files are not considered."
  },
  {
   "property": "C101",
   "status": "proved",
   "theorems": [
    "Props.C101_regex",
    "Props.C101_ltok",
    "Props.C101_maxscore",
    "Props.C101_nouns",
    "Props.C101_maxlr",
    "Props.C101_positions_violation"
   ],
   "note": "Includes the finding C101_positions_violation: piece offsets reported with debug are wrong."
  },
  {
   "property": "C102",
   "status": "proved",
   "theorems": [
    "Props.C102_v1",
    "Props.C102_bigram",
    "Props.C102_vectorizer",
    "Props.C102_vectorizer_violation",
    "Props.C102_pruning_violation",
    "Props.C102_news_violation",
    "Props.C102_predicator_violation",
    "Props.C102_predicator",
    "Props.C102_v2",
    "Props.C102_words"
   ],
   "note": ""
  },
  {
   "property": "C103",
   "status": "proved",
   "theorems": [
    "Props.C103_eojeols",
    "Props.C103_words",
    "Props.C103_bigram",
    "Props.C103_pmi",
    "Props.C103_vectorizer",
    "Props.C103_v1",
    "Props.C103_v1_violation",
    "Props.C103_words_violation",
    "Props.C103_v2",
    "Props.C103_v2_violation",
    "Props.C103_v2_score_violation"
   ],
   "note": ""
  },
  {
   "property": "C104",
   "status": "proved",
   "theorems": [
    "Props.C104_graph",
    "Props.C104_counter",
    "Props.C104_nouns",
    "Props.C104_features",
    "Props.C104_predicators",
    "Props.C104_predicator_args",
    "Props.C104_words",
    "Props.C104_numbers",
    "Props.C104_tokenizers",
    "Props.C104_lemmas",
    "Props.C104_news",
    "Props.C104_taggers"
   ],
   "note": ""
  },
  {
   "property": "C105",
   "status": "proved",
   "theorems": [
    "Props.C105_nouns",
    "Props.C105_eomi",
    "Props.C105_bigram"
   ],
   "note": ""
  },
  {
   "property": "C106",
   "status": "proved",
   "theorems": [
    "Props.C106_eojeols",
    "Props.C106_word_extractor",
    "Props.C106_bigram",
    "Props.C106_news_noun",
    "Props.C106_lrgraph"
   ],
   "note": ""
  },
  {
   "property": "C107",
   "status": "proved",
   "theorems": [
    "Props.C107_cohesion",
    "Props.C107_branching",
    "Props.C107_news_noun",
    "Props.C107_pmi"
   ],
   "note": ""
  },
  {
   "property": "C108",
   "status": "proved",
   "theorems": [
    "Props.C108_shared",
    "Props.C108_apart",
    "Props.C108_max_length",
    "Props.C108_generate",
    "Props.C108_stale_max_length"
   ],
   "note": ""
  },
  {
   "property": "C109",
   "status": "proved",
   "theorems": [
    "Props.C109_lr",
    "Props.C109_eojeol"
   ],
   "note": ""
  },
  {
   "property": "C110",
   "status": "proved",
   "theorems": [
    "Props.C110_tokenizers",
    "Props.C110_tagger",
    "Props.C110_normalize",
    "Props.C110_counters",
    "Props.C110_bigram"
   ],
   "note": "EojeolCounter, WordExtractor and Bigram with no filtering on the way, as in C106."
  },
  {
   "property": "C111",
   "status": "proved",
   "theorems": [
    "Props.C111_tokenizers",
    "Props.C111_maxlr",
    "Props.C111_eojeol_matcher",
    "Props.C111_lr_matcher",
    "Props.C111_add_word"
   ],
   "note": "MaxLRScoreTokenizer: the dictionaries as the object holds them (preferences already added)."
  },
  {
   "property": "C112",
   "status": "proved",
   "theorems": [
    "Props.C112_max_score",
    "Props.C112_long_violated",
    "Props.C112_left_parts",
    "Props.C112_right_parts_violated",
    "Props.C112_noun_chains",
    "Props.C112_noun_match_violated",
    "Props.C112_regex"
   ],
   "note": "Three violations recorded as theorems. MaxLRScoreTokenizer is not treated: it raises on many inputs (C20)."
  },
  {
   "property": "C113",
   "status": "proved",
   "theorems": [
    "Props.C113_max_score",
    "Props.C113_noun_match",
    "Props.C113_ltokenizer",
    "Props.C113_ltokenizer_scale",
    "Props.C113_tolerance_violated",
    "Props.C113_tagger"
   ],
   "note": ""
  },
  {
   "property": "C114",
   "status": "proved",
   "theorems": [
    "Props.C114_one_character",
    "Props.C114_anything_else",
    "Props.C114_decompose",
    "Props.C114_compose",
    "Props.C114_round_trip",
    "Props.C114_candidates"
   ],
   "note": ""
  },
  {
   "property": "C115",
   "status": "proved",
   "theorems": [
    "Props.C115_max_score_eojeol",
    "Props.C115_max_score",
    "Props.C115_ltokenizer",
    "Props.C115_tolerance_violated",
    "Props.C115_left_nouns",
    "Props.C115_noun_lost",
    "Props.C115_noun_match",
    "Props.C115_lr_candidates",
    "Props.C115_eojeol_candidates",
    "Props.C115_compound_lost"
   ],
   "note": ""
  },
  {
   "property": "C116",
   "status": "proved",
   "theorems": [
    "Props.C116_eojeol_counter",
    "Props.C116_word_training",
    "Props.C116_word_scores",
    "Props.C116_l_tokenizer",
    "Props.C116_max_score",
    "Props.C116_noun_l_match",
    "Props.C116_noun_match",
    "Props.C116_vectorizer_fit",
    "Props.C116_vectorizer_encode",
    "Props.C116_bigrams",
    "Props.C116_distances",
    "Props.C116_word_score_table",
    "Props.C116_word_extract",
    "Props.C116_jamo_not_blind",
    "Props.C116_graph_construct",
    "Props.C116_graph_history",
    "Props.C116_counter_to_graph",
    "Props.C116_max_lr"
   ],
   "note": ""
  },
  {
   "property": "C117",
   "status": "proved",
   "theorems": [
    "Props.C117_evaluate",
    "Props.C117_raises",
    "Props.C117_error",
    "Props.C117_default",
    "Props.C117_no_preference"
   ],
   "note": "Scores are real numbers; the preferences and tags are compared as strings."
  },
  {
   "property": "C118",
   "status": "proved",
   "theorems": [
    "Props.C118_word",
    "Props.C118_cohesion",
    "Props.C118_pruning",
    "Props.C118_eojeol",
    "Props.C118_lrgraph",
    "Props.C118_bigram",
    "Props.C118_pmi_violated",
    "Props.C118_noun_violated"
   ],
   "note": "C118_pruning is the counterexample with num_for_pruning = 2."
  },
  {
   "property": "C119",
   "status": "proved",
   "theorems": [
    "Props.C119_levenshtein",
    "Props.C119_jamo",
    "Props.C119_cosine",
    "Props.C119_jaccard",
    "Props.C119_normalize",
    "Props.C119_repeat",
    "Props.C119_only",
    "Props.C119_emoticon_violated",
    "Props.C119_eojeols",
    "Props.C119_bigrams",
    "Props.C119_words",
    "Props.C119_words_violated",
    "Props.C119_maxscore_violated"
   ],
   "note": "Three counterexamples: C119_emoticon_violated, C119_words_violated, C119_maxscore_violated."
  },
  {
   "property": "C120",
   "status": "proved",
   "theorems": [
    "Props.C120_counts",
    "Props.C120_coverage",
    "Props.C120_coverage_violation",
    "Props.C120_counted",
    "Props.C120_graph",
    "Props.C120_graph_violation"
   ],
   "note": ""
  },
  {
   "property": "C121",
   "status": "proved",
   "theorems": [
    "Props.C121_tokens",
    "Props.C121_normalize",
    "Props.C121_longer_violation",
    "Props.C121_eojeols",
    "Props.C121_words",
    "Props.C121_pairs"
   ],
   "note": ""
  },
  {
   "property": "C122",
   "status": "proved",
   "theorems": [
    "Props.C122_scores",
    "Props.C122_none",
    "Props.C122_lr",
    "Props.C122_late_violation",
    "Props.C122_lr_violation"
   ],
   "note": ""
  },
  {
   "property": "C123",
   "status": "proved",
   "theorems": [
    "Props.C123_history",
    "Props.C123_limits",
    "Props.C123_live",
    "Props.C123_stale",
    "Props.C123_training"
   ],
   "note": "Full history theorem; each change of the file happens between calls, not in the middle of an iteration."
  }
 ]
}