{"claims": [
  {"property": "C01", "status": "proved", "theorems": ["TFMA.Slicer.C01_generate_exact", "TFMA.Slicer.C01_generate_error", "TFMA.Slicer.C01_value_reading", "TFMA.Slicer.C01_spec_contents", "TFMA.Slicer.C01_overall"], "note": "Exact set of generated keys, possible errors, contents of an accepted spec, overall spec. np.unique's sorting is dropped (only the set matters)."},
  {"property": "C02", "status": "proved", "theorems": ["TFMA.Slicer.C02_generated_applicable"], "note": ""},
  {"property": "C03", "status": "proved", "theorems": ["TFMA.Slicer.C03_applicable_iff", "TFMA.Slicer.C03_applicable_perm", "TFMA.Slicer.C03_overall_only_empty", "TFMA.Slicer.C03_spec_order_irrelevant"], "note": "Characterisation, permutation of the key, permutation of the configured columns/features, overall spec."},
  {"property": "C04", "status": "proved", "theorems": ["TFMA.Slicer.C04_once_per_slice", "TFMA.Slicer.C04_slice_size"], "note": "Per example and for whole collections; python equality of keys is modelled."},
  {"property": "C05", "status": "partial", "theorems": ["TFMA.Slicer.C05_min_size_partial", "TFMA.Slicer.C05_cross_slice_crash"], "note": "Proved for ordinary slices. False for cross-slice keys: C05_cross_slice_crash proves that any cross-slice result makes the stage raise IndexError when the minimum size is above 1."},
  {"property": "C06", "status": "partial", "theorems": ["TFMA.Slicer.C06_exact", "TFMA.Slicer.C06_ordinary", "TFMA.Slicer.C06_cross", "TFMA.Slicer.C06_rejects_partial", "TFMA.Slicer.C06_two_char_text_accepted"], "note": "Exact behaviour for every object is proved (C06_exact); 'anything else is rejected' is false for two character texts (C06_two_char_text_accepted) and proved for key shaped objects."},
  {"property": "C07", "status": "partial", "theorems": ["TFMA.Slicer.C07_roundtrip_partial", "TFMA.Slicer.C07_cross_roundtrip_partial", "TFMA.Slicer.C07_injective_partial", "TFMA.Slicer.C07_columns_survive", "TFMA.Slicer.C07_float_not_preserved", "TFMA.Slicer.C07_float_collision"], "note": "Round trip and injectivity for text, int64 integers and single precision floats; proved false for other floats (C07_float_not_preserved, C07_float_collision): the protobuf field is a 32 bit float."},
  {"property": "C08", "status": "partial", "theorems": ["TFMA.Filters.C08_include_exact", "TFMA.Filters.C08_exclude_exact", "TFMA.Filters.C08_partition_partial", "TFMA.Filters.C08_include_succeeds_iff", "TFMA.Filters.C08_empty_filter_not_complementary", "TFMA.Filters.C08_include_idempotent", "TFMA.Filters.C08_exclude_idempotent"], "note": "Inclusion, exclusion, their success condition, complementarity and idempotence for all nested dictionaries and all non-empty filters; proved false for the empty filter, which both functions treat as 'keep everything' (C08_empty_filter_not_complementary)."},
  {"property": "C09", "status": "proved", "theorems": ["TFMA.Filters.C09_merge_union", "TFMA.Filters.C09_merge_empty", "TFMA.Filters.C09_merge_succeeds"], "note": ""},
  {"property": "C10", "status": "partial", "theorems": ["TFMA.Keys.C10_original_unmodified", "TFMA.Keys.C10_value_stored", "TFMA.Keys.C10_other_paths", "TFMA.Keys.C10_succeeds_iff", "TFMA.Keys.C10_empty_path", "TFMA.Keys.C10_get_exact_path", "TFMA.Keys.C10_read_back_partial", "TFMA.Keys.C10_empty_dict_not_found"], "note": "Heap model with object identity. Read-back is false for a stored empty dictionary (C10_empty_dict_not_found); everything else holds in general."},
  {"property": "C11", "status": "proved", "theorems": ["TFMA.Keys.C11_terminates", "TFMA.Keys.C11_result", "TFMA.Keys.C11_no_collision", "TFMA.Keys.C11_sequence_distinct"], "note": "Termination within len(current_keys) iterations by pigeonhole; smallest free index; sequences of calls."},
  {"property": "C12", "status": "partial", "theorems": ["TFMA.Keys.C12_collisions", "TFMA.Keys.C12_injective_partial"], "note": "False in general (C12_collisions); injective when the second and later names are non-empty and do not start with an underscore."},
  {"property": "C13", "status": "partial", "theorems": ["TFMA.Extracts.C13_split", "TFMA.Extracts.C13_all_none_lost", "TFMA.Extracts.C13_round_trip_partial", "TFMA.Extracts.C13_equal_length_rows_become_dense", "TFMA.Extracts.C13_empty_rows_lost", "TFMA.Extracts.C13_ragged_rows", "TFMA.Extracts.C13_sparse_any_order", "TFMA.Extracts.C13_sparse_missing", "TFMA.Extracts.C13_sparse_sorted", "TFMA.Extracts.C13_one_ragged_dimension", "TFMA.Extracts.C13_sparse_accepted", "TFMA.Extracts.C13_sparse_entries", "TFMA.Extracts.C13_ragged_accepted", "TFMA.Extracts.C13_ragged_merge_accepted"], "note": "Splitting is proved in general; the round trip for batches of at least one row with a leaf that is not None, variable length leaves with rows of different lengths, sparse leaves in row-major order and ragged leaves with several ragged dimensions. The exceptions are proved to fail or to come back in another form (C13_all_none_lost, C13_equal_length_rows_become_dense, C13_empty_rows_lost, C13_sparse_sorted, C13_sparse_missing, C13_one_ragged_dimension)."},
  {"property": "C14", "status": "partial", "theorems": ["TFMA.VarLen.C14_encode", "TFMA.VarLen.C14_encode_refused", "TFMA.VarLen.C14_round_trip_partial", "TFMA.VarLen.C14_all_empty_lost", "TFMA.VarLen.C14_accepted_iterates"], "note": "Round trip whenever some row is not empty; proved false when all rows are empty (C14_all_empty_lost). Also: the constructor's check makes the iterator's assertion unreachable."},
  {"property": "C15", "status": "proved", "theorems": ["TFMA.Attributions.C15_attributions", "TFMA.Attributions.C15_attributions_value", "TFMA.Attributions.C15_attributions_accepts", "TFMA.Combiners.C15_mean", "TFMA.Combiners.C15_mean_value", "TFMA.Combiners.C15_example_count", "TFMA.Combiners.C15_example_count_unweighted", "TFMA.Combiners.C15_example_count_weighted", "TFMA.Combiners.C15_calibration", "TFMA.Combiners.C15_calibration_value", "TFMA.Combiners.C15_pearson", "TFMA.Combiners.C15_pearson_value", "TFMA.Combiners.C15_tjur", "TFMA.Combiners.C15_tjur_value", "TFMA.Combiners.C15_relative_tjur_value", "TFMA.Combiners.C15_min_label_position", "TFMA.Combiners.C15_min_label_position_value", "TFMA.Combiners.C15_query_statistics", "TFMA.Combiners.C15_query_statistics_value", "TFMA.Combiners.C15_exact_match", "TFMA.Combiners.C15_exact_match_value", "TFMA.Bcm.C15_binary_confusion_matrices", "TFMA.Histogram.C15_calibration_histogram", "TFMA.MultiClass.C15_multi_class", "TFMA.Ndcg.C15_ndcg"], "note": "Exact result and independence from bundling, merge tree and order for all thirteen combiners; floats are exact rationals (NDCG: any ordered field)."},
  {"property": "C16", "status": "partial", "theorems": ["TFMA.Combiners.C16_flip_counts_partial", "TFMA.Combiners.C16_flip_counts_value", "TFMA.Combiners.C16_flip_rate_value", "TFMA.Combiners.C16_flip_counts_doubled", "TFMA.Combiners.C16_flip_rate_depends_on_bundling", "TFMA.Combiners.C16_prediction_difference_partial", "TFMA.Combiners.C16_prediction_difference_doubled", "TFMA.Combiners.C16_prediction_difference_depends_on_bundling", "TFMA.Combiners.C16_cosine_partial", "TFMA.Combiners.C16_cosine_doubled", "TFMA.Combiners.C16_cosine_depends_on_bundling", "TFMA.Combiners.C16_regression_error_partial", "TFMA.Combiners.C16_regression_error_doubled", "TFMA.Combiners.C16_regression_error_depends_on_bundling", "TFMA.Combiners.C16_cross_entropy_partial", "TFMA.Combiners.C16_cross_entropy_doubled", "TFMA.Combiners.C16_cross_entropy_depends_on_bundling"], "note": "False: every listed combiner counts the first accumulator of a merge twice (C16_*_doubled give the exact result, C16_*_depends_on_bundling are witnesses). C16_*_partial: independence holds for one-shot iterators."},
  {"property": "C17", "status": "proved", "theorems": ["TFMA.Bcm.C17_matrices", "TFMA.Bcm.C17_cells_sum", "TFMA.Bcm.C17_monotone", "TFMA.Bcm.C17_duplicate_threshold_doubles"], "note": "For distinct thresholds (as the property says); C17_duplicate_threshold_doubles shows that a repeated threshold counts everything twice."},
  {"property": "C18", "status": "proved", "theorems": ["TFMA.Histogram.C18_bucket_index", "TFMA.Histogram.C18_bucket_unique", "TFMA.Histogram.C18_histogram", "TFMA.Histogram.C18_totals"], "note": "Bucket index in exact arithmetic on finite predictions plus the infinities; totals, exact histogram, any bundling."},
  {"property": "C19", "status": "proved", "theorems": ["TFMA.Histogram.C19_rebin", "TFMA.Histogram.C19_start", "TFMA.Histogram.C19_length", "TFMA.Histogram.C19_conserves", "TFMA.Histogram.C19_slot_unique"], "note": "Bucket boundaries in exact arithmetic."},
  {"property": "C20", "status": "partial", "theorems": ["TFMA.Bcm.C20_consistent_partial", "TFMA.Bcm.C20_above_range_loses_weight", "TFMA.Bcm.C20_single_above_range"], "note": "Proved when no threshold lies above the range or the first of several thresholds is negative (the default lists); false otherwise (C20_above_range_loses_weight, C20_single_above_range)."},
  {"property": "C21", "status": "partial", "theorems": ["TFMA.Bcm.C21_elementwise_partial", "TFMA.Bcm.C21_elementwise_subset_partial", "TFMA.Bcm.C21_interleaved_raises", "TFMA.Bcm.C21_index_out_of_range", "TFMA.Bcm.C21_not_correct", "TFMA.Bcm.C21_broadcast"], "note": "Soundness: whenever the operation returns, the result is right; totality when the right operand's thresholds occur in the left one. The full claim is false (C21_not_correct): swapped indices on line 124 raise AssertionError or IndexError for interleaved thresholds."},
  {"property": "C22", "status": "partial", "theorems": ["TFMA.MultiClass.C22_accepts", "TFMA.MultiClass.C22_entries_partial", "TFMA.MultiClass.C22_descending_wrong", "TFMA.MultiClass.C22_counted_once"], "note": "Exact entries for every ascending threshold list. C22_descending_wrong proves the claim false for unsorted thresholds: once the predicted class has been set to -1 the code compares predictions[-1], the last class, with the later thresholds."},
  {"property": "C23", "status": "proved", "theorems": ["TFMA.Combiners.C23_value", "TFMA.Combiners.C23_range", "TFMA.Combiners.C23_affine"], "note": "Value equals cov^2/(var*var) by deviations from weighted means, NaN exactly when the weight or a variance vanishes, and 0..1 by Cauchy-Schwarz; affine predictions give 1. Non-negative weights, exact arithmetic."},
  {"property": "C24", "status": "proved", "theorems": ["TFMA.Ndcg.C24_value", "TFMA.Ndcg.C24_ideal_exists", "TFMA.Ndcg.C24_le_one", "TFMA.Ndcg.C24_nonneg", "TFMA.Ndcg.C24_sorted", "TFMA.Ndcg.C24_mean", "TFMA.Ndcg.C24_rejects", "TFMA.Ndcg.C24_range", "TFMA.Ndcg.C24_log2"], "note": "Over any ordered field with any positive non-decreasing discount; C24_log2 shows the real log2 qualifies. np.argsort is any function that sorts, so ties are arbitrary."},
  {"property": "C25", "status": "proved", "theorems": ["TFMA.Aggregation.C25_macro", "TFMA.Aggregation.C25_plain", "TFMA.Aggregation.C25_bounds", "TFMA.Aggregation.C25_nan_class", "TFMA.Aggregation.C25_none_raises", "TFMA.Aggregation.C25_output"], "note": "Exact arithmetic. The default class_weights=None raises TypeError (C25_none_raises); the pipeline always passes a dictionary."},
  {"property": "C26", "status": "partial", "theorems": ["TFMA.Aggregation.C26_weighted_partial", "TFMA.Aggregation.C26_unlisted_keeps_weight", "TFMA.Aggregation.C26_top_k_unweighted", "TFMA.Aggregation.C26_same_key", "TFMA.Aggregation.C26_weights_schedule", "TFMA.Aggregation.C26_label_share"], "note": "Holds if every class is listed (or no class weights are given); false for unlisted classes (C26_unlisted_keeps_weight) and for top k (C26_top_k_unweighted). Result key equals the one of macro_average (C26_same_key)."},
  {"property": "C27", "status": "proved", "theorems": ["TFMA.Inputs.C27_flow", "TFMA.Inputs.C27_flow_rejects", "TFMA.Inputs.C27_flow_no_label", "TFMA.Inputs.C27_preserves", "TFMA.Inputs.C27_rejects_iff", "TFMA.Inputs.C27_negative_weight"], "note": "Labels and weights are exact rationals; one value per example."},
  {"property": "C28", "status": "partial", "theorems": ["TFMA.Inputs.C28_one_hot_partial", "TFMA.Inputs.C28_hot_spec", "TFMA.Inputs.C28_rejects_partial", "TFMA.Inputs.C28_fraction", "TFMA.Inputs.C28_accepts_n", "TFMA.Inputs.C28_wraps"], "note": "Proved for labels in [-1, n). False outside: label n is accepted as all zeros and labels <= -2 wrap around (C28_accepts_n, C28_wraps)."},
  {"property": "C29", "status": "proved", "theorems": ["TFMA.Evaluate.C29_first_occurrences", "TFMA.Evaluate.C29_represented", "TFMA.Evaluate.C29_once_in_order", "TFMA.Evaluate.C29_identity", "TFMA.Evaluate.C29_error", "TFMA.Evaluate.C29_key_order"], "note": "Whole of _filter_and_separate_computations. C29_key_order records that two computations listing the same keys in a different order are different."},
  {"property": "C30", "status": "partial", "theorems": ["TFMA.Evaluate.C30_merged", "TFMA.Evaluate.C30_dedup_partial"], "note": "The claim as stated is false: C30_merged gives two derived computations that compute different values and share an id, because the id uses the name of the type of the result function. C30_dedup_partial proves that deduplication is harmless when computations with the same id do compute the same results."},
  {"property": "C31", "status": "proved", "theorems": ["TFMA.Evaluate.C31_private", "TFMA.Evaluate.C31_private_get", "TFMA.Evaluate.C31_separated", "TFMA.Evaluate.C31_kinds_conflated"], "note": "_remove_private_metrics and _filter_by_key_type. C31_kinds_conflated records that a metric key and a plot key with the same fields are one dictionary key."},
  {"property": "C32", "status": "proved", "theorems": ["TFMA.Evaluate.C32_difference", "TFMA.Evaluate.C32_others_unchanged", "TFMA.Evaluate.C32_values_unchanged", "TFMA.Evaluate.C32_no_baseline", "TFMA.Evaluate.C32_overwrites"], "note": "Subtraction of metric values is a parameter (values that cannot be subtracted are skipped as in the code)."},
  {"property": "C33", "status": "proved", "theorems": ["TFMA.Evaluate.C33_pairs", "TFMA.Evaluate.C33_slices_kept", "TFMA.Evaluate.C33_pair_count", "TFMA.Evaluate.C33_values", "TFMA.Evaluate.C33_values_computed", "TFMA.Evaluate.C33_same_slice", "TFMA.Evaluate.C33_pair_twice", "TFMA.Evaluate.C33_not_subtractable"], "note": "C33_same_slice and C33_pair_twice record that a slice may be compared with itself and that two specs asking for the same pair give two records."},
  {"property": "C34", "status": "partial", "theorems": ["TFMA.Validation.C34_ok_sound", "TFMA.Validation.C34_ok_iff_partial", "TFMA.Validation.C34_missing_elsewhere", "TFMA.Validation.C34_invalid_raises", "TFMA.Validation.C34_total"], "note": "proved for metrics that are numbers and present or whose thresholds have no slicing spec; false in general: a missing metric fails ordinary slices its per-slice threshold does not concern (C34_missing_elsewhere) and a non-numeric metric raises (C34_invalid_raises)"},
  {"property": "C35", "status": "proved", "theorems": ["TFMA.Validation.C35_nan", "TFMA.Validation.C35_ratio", "TFMA.Validation.C35_no_bound"], "note": ""},
  {"property": "C36", "status": "proved", "theorems": ["TFMA.Validation.C36_value", "TFMA.Validation.C36_interval", "TFMA.Validation.C36_change", "TFMA.Validation.C36_higher", "TFMA.Validation.C36_lower", "TFMA.Validation.C36_unknown"], "note": ""},
  {"property": "C37", "status": "proved", "theorems": ["TFMA.Validation.C37_verdict", "TFMA.Validation.C37_failures", "TFMA.Validation.C37_flags", "TFMA.Validation.C37_none_erases"], "note": "inputs are ValidationResult messages as validate_metrics returns them; C37_none_erases shows what an input None would do"},
  {"property": "C38", "status": "partial", "theorems": ["TFMA.Validation.C38_counts", "TFMA.Validation.C38_spec_counts_partial", "TFMA.Validation.C38_cross_counted_as_overall"], "note": "proved for all merge trees; cross slicing specs are counted for the overall spec (C38_cross_counted_as_overall), so the claim on cross-slicing specs is false"},
  {"property": "C39", "status": "partial", "theorems": ["TFMA.Validation.C39_missing", "TFMA.Validation.C39_spec_missing_partial", "TFMA.Validation.C39_cross_always_missing"], "note": "proved for ordinary specs; false for cross-slicing specs, which are always listed as missing (C39_cross_always_missing)"},
  {"property": "C40", "status": "proved", "theorems": ["TFMA.Confidence.C40_full", "TFMA.Confidence.C40_sample", "TFMA.Confidence.C40_one_bucket", "TFMA.Confidence.C40_interval"], "note": "For every CombineFn, every assignment of elements to buckets and every runner schedule (CombinesPerKey); the interval theorems assume that the metrics of an accumulator depend only on the multiset of elements (Lawful, shown for the combiners of C09, C11, C17 etc.) and model the derived metrics as computed slice by slice; cross slice metrics are not part of the jackknife model."},
  {"property": "C41", "status": "proved", "theorems": ["TFMA.Confidence.C41_jackknife", "TFMA.Confidence.C41_pseudo_mean", "TFMA.Confidence.C41_not_pseudo_mean", "TFMA.Confidence.C41_plain_mean", "TFMA.Confidence.C41_bootstrap", "TFMA.Confidence.C41_one_sample", "TFMA.Confidence.C41_interval"], "note": "Over the reals. The claim that the pseudo value mean is reported is refuted (C41_not_pseudo_mean)."},
  {"property": "C42", "status": "proved", "theorems": ["TFMA.Confidence.C42_accumulator", "TFMA.Confidence.C42_result", "TFMA.Confidence.C42_missing_samples", "TFMA.Confidence.C42_entries"], "note": "Hypothesis: exactly one full record per slice (C40 shows the pipeline produces exactly one)."},
  {"property": "C43", "status": "partial", "theorems": ["TFMA.MetricKeys.C43_subkey_new", "TFMA.MetricKeys.C43_aggregation_new", "TFMA.MetricKeys.C43_roundtrip_iff", "TFMA.MetricKeys.C43_roundtrip_partial", "TFMA.MetricKeys.C43_out_of_range", "TFMA.MetricKeys.C43_injective", "TFMA.MetricKeys.C43_plot_iff", "TFMA.MetricKeys.C43_attributions_iff", "TFMA.MetricKeys.C43_not_all"], "note": "Exact characterisation: the round trip succeeds for all keys whose numbers fit 32 bits and returns the key iff the sub key is not SubKey(None,None,None) and the aggregation type has exactly one flag, True; C43_not_all gives constructible keys that change. Plot and attribution keys likewise."},
  {"property": "C44", "status": "partial", "theorems": ["TFMA.MetricKeys.C44_never_less", "TFMA.MetricKeys.C44_sort_partial", "TFMA.MetricKeys.C44_uniform", "TFMA.MetricKeys.C44_not_canonical", "TFMA.MetricKeys.C44_type_error", "TFMA.MetricKeys.C44_raises"], "note": "False of the code: __lt__ is a conjunction whose example_weighted part is never true, so no key is ever less than another (C44_never_less); sorting returns its input or raises TypeError."},
  {"property": "C45", "status": "partial", "theorems": ["TFMA.Config.C45_accepts_iff", "TFMA.Config.C45_error", "TFMA.Config.C45_unique_partial", "TFMA.Config.C45_duplicate_names"], "note": "C45_accepts_iff characterises verify_eval_config completely. The uniqueness of names is false (C45_duplicate_names): the check compares a name with model specs and never fires."},
  {"property": "C46", "status": "partial", "theorems": ["TFMA.Config.C46_rejected_iff", "TFMA.Config.C46_errors", "TFMA.Config.C46_no_baseline", "TFMA.Config.C46_thresholds_kept", "TFMA.Config.C46_baseline_added", "TFMA.Config.C46_method", "TFMA.Config.C46_idempotent_partial", "TFMA.Config.C46_not_idempotent", "TFMA.Config.C46_model_agnostic", "TFMA.Config.C46_single_model", "TFMA.Config.C46_several_models"], "note": "Removal of change thresholds and baselines and the rejection of change thresholds are proved in full. Idempotence is false for a single named model in a run with a baseline (C46_not_idempotent) and proved otherwise (C46_idempotent_partial)."},
  {"property": "C47", "status": "proved", "theorems": ["TFMA.Boxes.C47_inverse", "TFMA.Boxes.C47_one_to_one", "TFMA.Boxes.C47_greedy", "TFMA.Boxes.C47_error"], "note": "One threshold at a time (the code loops over them independently). IoU values are rationals."},
  {"property": "C48", "status": "proved", "theorems": ["TFMA.Boxes.C48_nonneg", "TFMA.Boxes.C48_le_one", "TFMA.Boxes.C48_symmetric", "TFMA.Boxes.C48_zero_iff", "TFMA.Boxes.C48_one_iff", "TFMA.Boxes.C48_table"], "note": "Rational coordinates; rounding is not modelled."},
  {"property": "C49", "status": "proved", "theorems": ["TFMA.EvaluationDicts.C49_union", "TFMA.EvaluationDicts.C49_conflict", "TFMA.EvaluationDicts.C49_collections"], "note": "All schedules; conflicts and non-dictionaries always raise."},
  {"property": "C50", "status": "partial", "theorems": ["TFMA.Slicer.C50_load_partial", "TFMA.Slicer.C50_no_specs", "TFMA.Slicer.C50_cross_partial", "TFMA.Slicer.C50_cross_as_overall", "TFMA.Slicer.C50_rounded_lost", "TFMA.Slicer.C50_iterator"], "note": "Holds for results of single slices with storable values (C50_load_partial, C50_no_specs). Comparisons of slices are loaded as if they were the overall slice (C50_cross_as_overall), a slice with a float outside single precision is not loaded by its own spec (C50_rounded_lost), and specs passed as an iterator are used up by the first record (C50_iterator)."},
  {"property": "C51", "status": "partial", "theorems": ["TFMA.Combiners.C51_exact_match_partial", "TFMA.Combiners.C51_match_iff_prefix", "TFMA.Combiners.C51_prefix_counts_as_match", "TFMA.Combiners.C51_zero_weight_raises"], "note": "Proved for predictions and labels of equal length; false otherwise (C51_prefix_counts_as_match, exact rule in C51_match_iff_prefix)."},
  {"property": "C52", "status": "partial", "theorems": ["TFMA.Combiners.C52_means_partial", "TFMA.Combiners.C52_calibration_partial", "TFMA.Combiners.C52_unlabelled_distorts_mean_prediction", "TFMA.Combiners.C52_unlabelled_counted_in_weight", "TFMA.Combiners.C52_top_k_uses_last_entry"], "note": "Proved for labelled examples without top_k; false with unlabelled examples (C52_unlabelled_distorts_mean_prediction) and with top_k (C52_top_k_uses_last_entry)."},
  {"property": "C53", "status": "proved", "theorems": ["TFMA.Bcm.C53_sampled_ids", "TFMA.Bcm.C53_sampled_ids_sound"], "note": ""},
  {"property": "C54", "status": "partial", "theorems": ["TFMA.Bcm.C54_cells", "TFMA.Bcm.C54_exact_partial", "TFMA.Bcm.C54_threshold_zero", "TFMA.Bcm.C54_threshold_one", "TFMA.Bcm.C54_single_negative", "TFMA.Bcm.C54_single", "TFMA.Bcm.C54_top_k"], "note": "Exact cells in terms of predictions rounded down to the histogram resolution (C54_cells), exact counting for grid values (C54_exact_partial); what a single negative threshold counts in all cases (C54_single) and for masked predictions (C54_top_k); false at thresholds 0 and 1 and for a single negative threshold (C54_threshold_zero, C54_threshold_one, C54_single_negative)."},
  {"property": "C55", "status": "proved", "theorems": ["TFMA.Inputs.C55_sparse", "TFMA.Inputs.C55_dense", "TFMA.Inputs.C55_encodings_agree"], "note": "Any batch shape; n >= 2 classes for sparse labels, one weight per call."},
  {"property": "C56", "status": "proved", "theorems": ["TFMA.Inputs.C56_sparse", "TFMA.Inputs.C56_dense", "TFMA.Inputs.C56_out_of_range", "TFMA.Inputs.C56_decomposition"], "note": "Any batch shape, one weight per call."},
  {"property": "C57", "status": "proved", "theorems": ["TFMA.Inputs.C57_value_unique", "TFMA.Inputs.C57_dense", "TFMA.Inputs.C57_sparse", "TFMA.Inputs.C57_too_few"], "note": "For every function meeting the documented contract of np.argpartition; vectors and 2-D batches."},
  {"property": "C58", "status": "proved", "theorems": ["TFMA.Inputs.C58_binarize_dense", "TFMA.Inputs.C58_binarize_sparse", "TFMA.Inputs.C58_all", "TFMA.Inputs.C58_aggregate_dense", "TFMA.Inputs.C58_aggregate_sparse"], "note": "For every function meeting the documented contract of np.argpartition; vectors and 2-D batches."},
  {"property": "C59", "status": "partial", "theorems": ["TFMA.Inputs.C59_dense", "TFMA.Inputs.C59_sparse", "TFMA.Inputs.C59_batch_by_position", "TFMA.Inputs.C59_needs_flatten"], "note": "Proved for single examples. False for batches: class weights are looked up by flattened position (C59_batch_by_position). The repeated use with top_k aggregation has the same defect."},
  {"property": "C60", "status": "proved", "theorems": ["TFMA.Inputs.C60_complete", "TFMA.Inputs.C60_nonempty", "TFMA.Inputs.C60_empty_weight"], "note": "The documented claim that the weight is never empty is false without label and prediction (C60_empty_weight)."},
  {"property": "C61", "status": "proved", "theorems": ["TFMA.Inputs.C61_models", "TFMA.Inputs.C61_outputs", "TFMA.Inputs.C61_missing", "TFMA.Inputs.C61_slash"], "note": "For model specs without label_key; entries present and not empty dictionaries. Nested model and output dictionaries follow for the model level only."},
  {"property": "C62", "status": "partial", "theorems": ["TFMA.Validation.C62_failures_sound", "TFMA.Validation.C62_failures_complete", "TFMA.Validation.C62_failures_once", "TFMA.Validation.C62_details_sound", "TFMA.Validation.C62_details_passed", "TFMA.Validation.C62_second_spec_not_mentioned"], "note": "failures: proved sound, complete and without duplicates; details: a second spec with an equal failing threshold is not mentioned (C62_second_spec_not_mentioned)"},
  {"property": "C63", "status": "proved", "theorems": ["TFMA.Confidence.C63_sample", "TFMA.Confidence.C63_all_once"], "note": "The Poisson draws are arbitrary natural numbers."},
  {"property": "C64", "status": "proved", "theorems": ["TFMA.Together.C64_prepared", "TFMA.Together.C64_prepare_iff", "TFMA.Together.C64_together", "TFMA.Together.C64_add_error"], "note": "C64_prepared: inputs found by index are the ones the computation is entitled to; C64_together: exact characterisation for every schedule; C64_add_error. Preprocessors are pure functions; TupleCombineFn of Beam modelled from its documented behaviour."},
  {"property": "C65", "status": "partial", "theorems": ["TFMA.Config.C65_named", "TFMA.Config.C65_single", "TFMA.Config.C65_known_partial", "TFMA.Config.C65_removed_baseline", "TFMA.Config.C65_unnamed_candidate"], "note": "False in two cases (C65_removed_baseline, C65_unnamed_candidate), proved otherwise (C65_known_partial). The remaining parts are proved in full."},
  {"property": "C66", "status": "proved", "theorems": ["TFMA.Config.C66_dict", "TFMA.Config.C66_list", "TFMA.Config.C66_idempotent", "TFMA.Config.C66_rubber_stamp"], "note": "verify_and_update_eval_shared_models and has_rubber_stamp."},
  {"property": "C67", "status": "proved", "theorems": ["TFMA.Boxes.C67_pairs", "TFMA.Boxes.C67_error", "TFMA.Boxes.C67_counts_by", "TFMA.Boxes.C67_counts"], "note": "Matching, filtering, sorting and limiting modelled over rational coordinates; C67_counts gives the thresholded confusion counts."},
  {"property": "C68", "status": "partial", "theorems": ["TFMA.SetMatch.C68_weight", "TFMA.SetMatch.C68_items", "TFMA.SetMatch.C68_weighted_partial", "TFMA.SetMatch.C68_zero_weight", "TFMA.SetMatch.C68_no_scores"], "note": "C68_items holds for all inputs; the weight is right unless the example weight is 0, which is treated as not given (C68_zero_weight). An empty score key makes every example raise (C68_no_scores)."},
  {"property": "C69", "status": "partial", "theorems": ["TFMA.Boxes.C69_truncate_partial", "TFMA.Boxes.C69_zero_rows", "TFMA.Boxes.C69_no_rows"], "note": "Holds for a positive number of detections; 0 keeps every padding row (C69_zero_rows)."},
  {"property": "C70", "status": "proved", "theorems": ["TFMA.Together.C70_slice_metrics", "TFMA.Together.C70_stable_of_C15"], "note": "C70_slice_metrics for all metrics that satisfy C15 (C70_stable_of_C15 turns a C15 theorem into the hypothesis). Hypothesis UniformKeys: python-equal slice keys are identical, since Beam groups by encoded key."},
  {"property": "C71", "status": "proved", "theorems": ["TFMA.Keys.C71_none_keys", "TFMA.Keys.C71_prefixed", "TFMA.Keys.C71_group", "TFMA.Keys.C71_missing", "TFMA.Keys.C71_not_mapping"], "note": "Nested dictionaries as a heap of objects; the dictionary of prefixed names is compared with the original through the names joined by slash."},
  {"property": "C72", "status": "partial", "theorems": ["TFMA.Extracts.C72_merge_partial", "TFMA.Extracts.C72_missing_matrix_fails"], "note": "Proved for None and one-dimensional values (C72_merge_partial); C72_missing_matrix_fails proves the claim false for values of two or more dimensions missing from some extract (the merge raises RuntimeError)."},
  {"property": "C73", "status": "proved", "theorems": ["TFMA.Combiners.C73_weighted_count", "TFMA.Combiners.C73_ambiguous"], "note": "Weights are rationals; selection of entries by name is get_by_keys as modelled for C71."},
  {"property": "C74", "status": "proved", "theorems": ["TFMA.Combiners.C74_symdiff_value", "TFMA.Combiners.C74_symdiff_tiny", "TFMA.Combiners.C74_symdiff_symm", "TFMA.Combiners.C74_symdiff_range", "TFMA.Combiners.C74_symdiff_zero", "TFMA.Combiners.C74_symdiff_opposite", "TFMA.Combiners.C74_errors", "TFMA.Combiners.C74_mean_error_nonneg"], "note": "Arithmetic over the rationals with explicit NaN and infinity; float rounding is not modelled."},
  {"property": "C75", "status": "proved", "theorems": ["TFMA.Bcm.C75_rates", "TFMA.Bcm.C75_range", "TFMA.Bcm.C75_complement", "TFMA.Bcm.C75_executions"], "note": ""},
  {"property": "C76", "status": "partial", "theorems": ["TFMA.Bcm.C76_f1", "TFMA.Bcm.C76_f1_range", "TFMA.Bcm.C76_means", "TFMA.Bcm.C76_likelihood", "TFMA.Bcm.C76_matthews", "TFMA.Bcm.C76_fowlkes_mallows", "TFMA.Bcm.C76_prevalence_threshold_partial", "TFMA.Bcm.C76_prevalence_threshold_raises"], "note": "False for PrevalenceThreshold: it raises ZeroDivisionError whenever the true positive rate equals the false positive rate (C76_prevalence_threshold_raises); the value is proved for the other matrices (C76_prevalence_threshold_partial). All other scores are proved in full."},
  {"property": "C77", "status": "proved", "theorems": ["TFMA.Bcm.C77_best"], "note": ""},
  {"property": "C78", "status": "proved", "theorems": ["TFMA.Bcm.C78_roc", "TFMA.Bcm.C78_executions", "TFMA.Bcm.C78_range", "TFMA.Bcm.C78_bounds", "TFMA.Bcm.C78_exact", "TFMA.Bcm.C78_perfect", "TFMA.Bcm.C78_one_class", "TFMA.Bcm.C78_no_endpoints", "TFMA.Bcm.C78_descending_negative", "TFMA.Bcm.C78_histogram"], "note": "C78_no_endpoints: the endpoint thresholds the documentation promises are not added to given thresholds; C78_descending_negative: descending thresholds give a negative area."},
  {"property": "C79", "status": "proved", "theorems": ["TFMA.Inputs.C79_unweighted", "TFMA.Inputs.C79_no_weights", "TFMA.Inputs.C79_single_weight", "TFMA.Inputs.C79_missing", "TFMA.Inputs.C79_missing_prediction", "TFMA.Inputs.C79_plain_prediction", "TFMA.Inputs.C79_single_spec", "TFMA.Inputs.C79_multi_spec", "TFMA.Inputs.C79_common_key", "TFMA.Inputs.C79_empty_output", "TFMA.Inputs.C79_empty_labels"], "note": "Model specs, weights and missing values of to_label_prediction_example_weight for all nestings; see InputsKeys."},
  {"property": "C80", "status": "partial", "theorems": ["TFMA.MetricSpecs.C80_sub_keys_partial", "TFMA.MetricSpecs.C80_error", "TFMA.MetricSpecs.C80_lost"], "note": "Sub keys and aggregation pairs are exactly those asked for unless aggregation options come without a type; C80_lost shows that these replace the binarization."},
  {"property": "C81", "status": "proved", "theorems": ["TFMA.MetricSpecs.C81_variants", "TFMA.MetricSpecs.C81_thresholds", "TFMA.MetricSpecs.C81_error"], "note": "Weighted variants and thresholds for all lists of specs."},
  {"property": "C82", "status": "partial", "theorems": ["TFMA.MetricSpecs.C82_computed_partial", "TFMA.MetricSpecs.C82_weighted_missing"], "note": "All aggregations except weighted macro averages; for those C82_weighted_missing shows that the key checked is never computed. Metrics are assumed to yield the key they are created for."},
  {"property": "C83", "status": "proved", "theorems": ["TFMA.MetricSpecs.C83_averaged", "TFMA.MetricSpecs.C83_accepted", "TFMA.MetricSpecs.C83_rejected", "TFMA.MetricSpecs.C83_macro", "TFMA.MetricSpecs.C83_weighted"], "note": "Both kinds of macro averages, for all lists of specs."},
  {"property": "C84", "status": "partial", "theorems": ["TFMA.MetricSpecs.C84_output_partial", "TFMA.MetricSpecs.C84_micro_fails"], "note": "Specs without aggregation options; C84_micro_fails shows that averages over outputs fail with micro averaging."},
  {"property": "C85", "status": "partial", "theorems": ["TFMA.MetricSpecs.C85_lost", "TFMA.MetricSpecs.C85_label_weights_lost", "TFMA.MetricSpecs.C85_kept_partial", "TFMA.MetricSpecs.C85_plain_mean", "TFMA.MetricSpecs.C85_nan"], "note": "Averages with different keys; C85_lost, C85_label_weights_lost, C85_plain_mean and C85_nan show what happens to those with equal keys."},
  {"property": "C86", "status": "partial", "theorems": ["TFMA.Labels.C86_texts", "TFMA.Labels.C86_all_unknown", "TFMA.Labels.C86_numbers", "TFMA.Labels.C86_sparse", "TFMA.Labels.C86_sparse_texts_kept", "TFMA.Labels.C86_sparse_range", "TFMA.Labels.C86_sparse_texts_partial", "TFMA.Labels.C86_unknown_marks_last", "TFMA.Labels.C86_matrix_row", "TFMA.Labels.C86_prediction", "TFMA.Labels.C86_vocabulary"], "note": "Sparse labels for one row of predictions, of numbers or numpy texts, with or without vocabulary (without one, C86_sparse_texts_kept). False of the code: unknown texts in sparse labels mark the last class and two dimensional indices set whole rows (C86_unknown_marks_last, C86_matrix_row). Not modelled: sparse texts as python objects without a vocabulary, indices of more than two dimensions."},
  {"property": "C87", "status": "partial", "theorems": ["TFMA.Bcm.C87_interpolation", "TFMA.Bcm.C87_range", "TFMA.Bcm.C87_rectangles", "TFMA.Bcm.C87_lower", "TFMA.Bcm.C87_upper_partial", "TFMA.Bcm.C87_end_lost", "TFMA.Bcm.C87_matrices", "TFMA.Bcm.C87_examples", "TFMA.Bcm.C87_pure", "TFMA.Bcm.C87_majoring_zero", "TFMA.Bcm.C87_no_positives"], "note": "majoring as upper bound only if something is predicted positive at all thresholds; negated otherwise by C87_majoring_zero"},
  {"property": "C88", "status": "partial", "theorems": ["TFMA.MatrixSetup.C88_interpolated", "TFMA.MatrixSetup.C88_ascending", "TFMA.MatrixSetup.C88_covers", "TFMA.MatrixSetup.C88_number", "TFMA.MatrixSetup.C88_given", "TFMA.MatrixSetup.C88_neither", "TFMA.MatrixSetup.C88_both_partial", "TFMA.MatrixSetup.C88_dropped", "TFMA.MatrixSetup.C88_metric_thresholds_partial", "TFMA.MatrixSetup.C88_integer", "TFMA.MatrixSetup.C88_sub_key", "TFMA.MatrixSetup.C88_unchecked"], "note": "Decision logic and spacing of the thresholds; false for 200 or 10000 with two thresholds less (C88_dropped), integer thresholds (C88_integer) and unvalidated sub keys (C88_unchecked)."},
  {"property": "C89", "status": "partial", "theorems": ["TFMA.MatrixSetup.C89_inputs", "TFMA.MatrixSetup.C89_shared_partial", "TFMA.MatrixSetup.C89_lost"], "note": "Equal keys imply equal computations for requests of the same aggregation type (C89_shared_partial); false between aggregation types (C89_lost). Texts of generated names are assumed to differ when their arguments do."},
  {"property": "C90", "status": "partial", "theorems": ["TFMA.MatrixSetup.C90_only_one", "TFMA.MatrixSetup.C90_setup", "TFMA.MatrixSetup.C90_sampler"], "note": "Samples of one sampler on one threshold (C90_sampler); false for several samplers (C90_only_one) and raises for empty cells."},
  {"property": "C91", "status": "proved", "theorems": ["TFMA.Evaluate.C91_difference_of_differences"], "note": "End to end over the three stages; numeric values are exact rationals embedded in the metric values, and no cross slice computations of metrics themselves."},
  {"property": "C92", "status": "partial", "theorems": ["TFMA.TfMetrics.C92_value_partial", "TFMA.TfMetrics.C92_rectangular", "TFMA.TfMetrics.C92_padded_partial", "TFMA.TfMetrics.C92_loss", "TFMA.TfMetrics.C92_loss_depends_on_batches", "TFMA.TfMetrics.C92_padding_depends_on_batches", "TFMA.TfMetrics.C92_ragged_depends_on_batches"], "note": "Proved for all executions, batch sizes and byte sizes, for metrics that add up contributions of rows (Keras itself is not modelled, so that is an assumption about the metric; proved for the loss wrapper with equal weights). Disproved in general: weighted losses, padding-sensitive metrics and ragged rows depend on the batches."},
  {"property": "C93", "status": "partial", "theorems": ["TFMA.TfMetrics.C93_error", "TFMA.TfMetrics.C93_metrics", "TFMA.TfMetrics.C93_declared", "TFMA.TfMetrics.C93_reported", "TFMA.TfMetrics.C93_values_partial", "TFMA.TfMetrics.C93_aggregated_undeclared", "TFMA.TfMetrics.C93_inputs", "TFMA.TfMetrics.C93_loss_inputs"], "note": "Duplicates, sub keys, errors, declared keys and inputs in full; values under the assumptions of C92. Disproved for aggregated metrics (undeclared keys) and for the inputs of losses."},
  {"property": "C94", "status": "partial", "theorems": ["TFMA.EvalResults.C94_metrics", "TFMA.EvalResults.C94_interval", "TFMA.EvalResults.C94_none", "TFMA.EvalResults.C94_error", "TFMA.EvalResults.C94_available_partial", "TFMA.EvalResults.C94_key", "TFMA.EvalResults.C94_attributions_partial", "TFMA.EvalResults.C94_weighted_variant_lost", "TFMA.EvalResults.C94_average_diff_lost", "TFMA.EvalResults.C94_several_models_dropped", "TFMA.EvalResults.C94_error_slice_dropped", "TFMA.EvalResults.C94_class_zero_attributions", "TFMA.EvalResults.C94_cross_slice_attributions"], "note": "soundness, completeness, None and KeyError of the accessors proved for all records; that every stored metric is shown is false for keys that share model, output, sub key and displayed name (witnesses)"},
  {"property": "C95", "status": "partial", "theorems": ["TFMA.EvalResults.C95_named", "TFMA.EvalResults.C95_accepted", "TFMA.EvalResults.C95_unnamed", "TFMA.EvalResults.C95_all_models_partial", "TFMA.EvalResults.C95_later_models_missing"], "note": "exactly which models are loaded; the documented 'all models' is false for several paths (witness)"},
  {"property": "C96", "status": "partial", "theorems": ["TFMA.DataFrames.C96_cells", "TFMA.DataFrames.C96_types", "TFMA.DataFrames.C96_numbers", "TFMA.DataFrames.C96_keys_differ", "TFMA.DataFrames.C96_repeated", "TFMA.DataFrames.C96_arrays_fail", "TFMA.DataFrames.C96_multi_class_fails", "TFMA.DataFrames.C96_multi_class_threshold", "TFMA.DataFrames.C96_cross_slice_as_overall", "TFMA.DataFrames.C96_unknown_type_fails"], "note": "all cells proved for values without nested repeated fields; the other supported types (arrays, multi class matrices) fail, as do cross slices (witnesses); pandas is modelled by columns aligned on row numbers, auto_pivot is not modelled"},
  {"property": "C97", "status": "partial", "theorems": ["TFMA.Extraction.C97_inputs_partial", "TFMA.Extraction.C97_transformed", "TFMA.Extraction.C97_other_models_features", "TFMA.Extraction.C97_label_of_other_model", "TFMA.Extraction.C97_weight_of_one_model_fails", "TFMA.Extraction.C97_prediction_key_with_output", "TFMA.Extraction.C97_named_like_feature"], "note": "proved from the features to the inputs of metrics under the stated conditions; without them witnesses show that labels of other models are used or metrics fail"},
  {"property": "C98", "status": "partial", "theorems": ["TFMA.Extraction.C98_prediction_partial", "TFMA.Extraction.C98_single_output_fails"], "note": "proved for outputs found by name; false for a model with a single output named in the metrics spec (C98_single_output_fails). What saved models compute is a parameter"},
  {"property": "C99", "status": "proved", "theorems": ["TFMA.Extraction.C99_rows", "TFMA.Extraction.C99_retried", "TFMA.Extraction.C99_another_dimension", "TFMA.Extraction.C99_sizes_fail", "TFMA.Extraction.C99_sparse_fails"], "note": "For one model with one output stored under one key, and features that are arrays or variable length tensors. C99_another_dimension, C99_sizes_fail and C99_sparse_fails note what differs: the retried rows have another dimension, arrays of different lengths are not retried, and the retry fails for sparse features."},
  {"property": "C100", "status": "proved", "theorems": ["TFMA.Extraction.C100_unbatch", "TFMA.Extraction.C100_lengths", "TFMA.Extraction.C100_empty_list_dropped"], "note": "C100_empty_list_dropped shows that an empty list is dropped silently."},
  {"property": "C101", "status": "proved", "theorems": ["TFMA.MultiLabel.C101_entries", "TFMA.MultiLabel.C101_row_sum", "TFMA.MultiLabel.C101_nan", "TFMA.MultiLabel.C101_several_sparse", "TFMA.MultiLabel.C101_all_labels", "TFMA.MultiLabel.C101_both", "TFMA.MultiLabel.C101_thresholds", "TFMA.MultiLabel.C101_num_thresholds", "TFMA.MultiLabel.C101_order"], "note": "Exact for every list of thresholds: a threshold listed n times is counted n times. Predictions with several dimensions are not modelled."},
  {"property": "C102", "status": "partial", "theorems": ["TFMA.Segmentation.C102_counts", "TFMA.Segmentation.C102_sizes", "TFMA.Segmentation.C102_sum", "TFMA.Segmentation.C102_values", "TFMA.Segmentation.C102_images_partial", "TFMA.Segmentation.C102_weights_fail"], "note": "Counting is proved in full. Missing: extracts with example weights, for which the preprocessor fails (C102_weights_fail)."},
  {"property": "C103", "status": "proved", "theorems": ["TFMA.Plots.C103_threshold_near", "TFMA.Plots.C103_thresholds", "TFMA.Plots.C103_distinct_iff", "TFMA.Plots.C103_values", "TFMA.Plots.C103_f1", "TFMA.Plots.C103_plot"], "note": "F1 is NaN when nothing predicted positive is positive, but 0 when nothing is predicted positive (C103_f1)."},
  {"property": "C104", "status": "proved", "theorems": ["TFMA.Plots.C104_plot", "TFMA.Plots.C104_total", "TFMA.Plots.C104_out_of_range", "TFMA.Plots.C104_stale_accuracy"], "note": "F1, accuracy and the two rates of a row are left over from the intermediate matrix (C104_stale_accuracy)."},
  {"property": "C105", "status": "proved", "theorems": ["TFMA.Plots.C105_plot_rounded", "TFMA.Plots.C105_plot", "TFMA.Plots.C105_three_buckets", "TFMA.Plots.C105_partition", "TFMA.Plots.C105_bounds"], "note": "For other numbers of buckets predictions are first rounded down to a ten thousandth of the range (C105_plot_rounded, C105_three_buckets)."},
  {"property": "C106", "status": "proved", "theorems": ["TFMA.Coco.C106_average_precision", "TFMA.Coco.C106_max_recall", "TFMA.Coco.C106_mean_range", "TFMA.Coco.C106_precision_range", "TFMA.Coco.C106_precision_antitone", "TFMA.Coco.C106_average_precision_range", "TFMA.Coco.C106_absent_class", "TFMA.Coco.C106_weights_ignored", "TFMA.Coco.C106_mean", "TFMA.Coco.C106_thresholds", "TFMA.Coco.C106_pairs_averaged", "TFMA.Coco.C106_class_weights", "TFMA.Coco.C106_defaults", "TFMA.Coco.C106_mean_average_precision", "TFMA.Coco.C106_average_recall", "TFMA.Coco.C106_mean_average_recall", "TFMA.Coco.C106_bundles", "TFMA.Coco.C106_validate", "TFMA.Coco.C106_accepted_fails"], "note": "A class without ground truth has average precision 0 (C106_absent_class), and weights have no influence (C106_weights_ignored). Arguments are accepted that every image then refuses (C106_accepted_fails)."},
  {"property": "C107", "status": "partial", "theorems": ["TFMA.CocoSetup.C107_shared", "TFMA.CocoSetup.C107_set_match_shared", "TFMA.CocoSetup.C107_set_match_weighted", "TFMA.CocoSetup.C107_apart_partial"], "note": "The generated name leaves out the columns, the key of the number of detections and allow_missing_key: metrics that differ only in them are merged and one of them reports the values of the other (C107_shared)."},
  {"property": "C108", "status": "partial", "theorems": ["TFMA.SetMatch.C108_thresholds_partial", "TFMA.SetMatch.C108_default", "TFMA.SetMatch.C108_top_k_partial", "TFMA.SetMatch.C108_nothing_predicted", "TFMA.SetMatch.C108_all_found", "TFMA.SetMatch.C108_negative_score", "TFMA.SetMatch.C108_named"], "note": "With top k and no thresholds the claim is false if nothing is predicted (recall 1), if no label is missed and some score is 1, or if a score is negative (C108_nothing_predicted, C108_all_found, C108_negative_score); with several models or a named output the metrics always fail (C108_named)."},
  {"property": "C109", "status": "proved", "theorems": ["TFMA.ModelInputs.C109_inputs", "TFMA.ModelInputs.C109_all_or_nothing", "TFMA.ModelInputs.C109_other_features", "TFMA.ModelInputs.C109_one_feature_twice", "TFMA.ModelInputs.C109_feature_for_examples", "TFMA.ModelInputs.C109_declared", "TFMA.ModelInputs.C109_called", "TFMA.ModelInputs.C109_missing"], "note": "Preprocessing functions named \"function@feature\" are not modelled."},
  {"property": "C110", "status": "partial", "theorems": ["TFMA.Counterfactual.C110_example_partial", "TFMA.Counterfactual.C110_no_swap", "TFMA.Counterfactual.C110_missing_source", "TFMA.Counterfactual.C110_predictions_partial", "TFMA.Counterfactual.C110_inputs_by_name", "TFMA.Counterfactual.C110_refused", "TFMA.Counterfactual.C110_single_named_fails", "TFMA.Counterfactual.C110_single_unusable"], "note": "False of the code if a source is the destination of an earlier entry (C110_no_swap), for models that take their inputs by name from the features, on which a config has no effect (C110_inputs_by_name), and for a single model (C110_single_named_fails, C110_single_unusable)."},
  {"property": "C111", "status": "partial", "theorems": ["TFMA.Bleu.C111_sentence", "TFMA.Bleu.C111_bounded", "TFMA.Bleu.C111_perfect", "TFMA.Bleu.C111_reference_order_partial", "TFMA.Bleu.C111_reference_tie", "TFMA.Bleu.C111_more_references", "TFMA.Bleu.C111_any_schedule", "TFMA.Bleu.C111_corpus_partial", "TFMA.Bleu.C111_empty_references", "TFMA.Bleu.C111_grouping_fails", "TFMA.Bleu.C111_untokenized", "TFMA.Bleu.C111_missing_reference", "TFMA.Bleu.C111_surplus"], "note": "False of the code in two cases: of two equally near reference lengths the first is taken, so the order matters (C111_reference_tie); an example whose references are all empty is treated by other rules (C111_grouping_fails, C111_untokenized). The score computed from the statistics (sacrebleu) is not modelled."},
  {"property": "C112", "status": "partial", "theorems": ["TFMA.Rouge.C112_average", "TFMA.Rouge.C112_between", "TFMA.Rouge.C112_fmeasure_not_harmonic", "TFMA.Rouge.C112_models_fails"], "note": "The last sentence is false of the code, for ROUGE and BLEU: C112_models_fails."},
  {"property": "C113", "status": "proved", "theorems": ["TFMA.Sample.C113_sample", "TFMA.Sample.C113_any_schedule", "TFMA.Sample.C113_size", "TFMA.Sample.C113_values", "TFMA.Sample.C113_uniform"], "note": "Every example carries its tag; that tags are independent of the schedule and distinct is assumed (they are random doubles). How a weight changes a tag (tag ** (1 / weight)) is not modelled."},
  {"property": "C114", "status": "partial", "theorems": ["TFMA.Views.C114_column", "TFMA.Views.C114_spec", "TFMA.Views.C114_overall", "TFMA.Views.C114_cross_fails", "TFMA.Views.C114_time_series", "TFMA.Views.C114_time_series_cross_fails"], "note": "False for results with a comparison to the overall slice: is_slice_applicable takes the pair of slice keys for two entries and raises IndexError, whatever slice is asked for (C114_cross_fails, C114_time_series_cross_fails). Holds for all other results."},
  {"property": "C115", "status": "partial", "theorems": ["TFMA.PlotViews.C115_shown_partial", "TFMA.PlotViews.C115_one_group", "TFMA.PlotViews.C115_names_fails", "TFMA.PlotViews.C115_cross_fails", "TFMA.PlotViews.C115_count", "TFMA.PlotViews.C115_one_sub_key", "TFMA.PlotViews.C115_combined_fails"], "note": "Holds if all plots of a model, output and sub key have default names or the same name and the same weighting (C115_shown_partial). False otherwise: loading ignores names and weightings, so only one group of plots survives (C115_one_group, C115_names_fails); plots of a cross slice are loaded as plots of the overall slice (C115_cross_fails), which then cannot be shown (C115_count); plots with a class id and a top k cannot be asked for (C115_combined_fails). Callbacks, error records, deprecated fields and the label are not modelled."},
  {"property": "C116", "status": "partial", "theorems": ["TFMA.KerasModel.C116_key", "TFMA.KerasModel.C116_key_overall", "TFMA.KerasModel.C116_sub_key", "TFMA.KerasModel.C116_key_prefix_fails", "TFMA.KerasModel.C116_key_single_fails", "TFMA.KerasModel.C116_value_partial", "TFMA.KerasModel.C116_lost_fails", "TFMA.KerasModel.C116_no_overall_fails"], "note": "False of the code in four ways, each with a witness or for all such models: an output whose name extends the name of an earlier output loses its metrics to it (C116_key_prefix_fails); a metric of the only output whose name begins with the name of the output is cut (C116_key_single_fails); two metrics can get the same key and one is lost (C116_lost_fails); a model whose metrics all belong to outputs, at least two, always raises (C116_no_overall_fails). C116_key says exactly when output and name are right. The value is proved for models whose keys are distinct and that have an overall metric or a single output, assuming that the metrics of the Keras model add up contributions of examples."},
  {"property": "C117", "status": "partial", "theorems": ["TFMA.Pipeline.C117_verified", "TFMA.Pipeline.C117_once", "TFMA.Pipeline.C117_total", "TFMA.Pipeline.C117_clash", "TFMA.Pipeline.C117_dropped_fails"], "note": "Proved for evaluators that passed verify_evaluator, as in ExtractEvaluateAndWriteResults. False for ExtractAndEvaluate used on its own: an evaluator that names an unknown extractor is left out without notice (C117_dropped_fails). Transforms are functions on collections and Beam's rule that labels must be unique is part of the model."},
  {"property": "C118", "status": "partial", "theorems": ["TFMA.Pipeline.C118_extractors", "TFMA.Pipeline.C118_refused", "TFMA.Pipeline.C118_custom_ignored_fails", "TFMA.Pipeline.C118_fits", "TFMA.Pipeline.C118_disabled_fails", "TFMA.Pipeline.C118_config_name_fails", "TFMA.Pipeline.C118_given", "TFMA.Pipeline.C118_given_extractors", "TFMA.Pipeline.C118_inputs", "TFMA.Pipeline.C118_no_config_fails"], "note": "The wiring is proved for all models (C118_extractors, C118_refused, C118_fits, C118_inputs). False: disabling metrics, plots or attributions has no effect unless all three are disabled, and then the run fails (C118_disabled_fails); the documented name eval_config.json disables nothing (C118_config_name_fails); a custom predict extractor is ignored without models and for materialized predictions (C118_custom_ignored_fails); without a configuration the default extractors refuse every example, and without models either the run is a TypeError (C118_no_config_fails)."},
  {"property": "C119", "status": "partial", "theorems": ["TFMA.SpecBuild.C119_asked_partial", "TFMA.SpecBuild.C119_refused", "TFMA.SpecBuild.C119_dropped_fails", "TFMA.SpecBuild.C119_empty_dict_fails", "TFMA.SpecBuild.C119_counted_once", "TFMA.SpecBuild.C119_regression", "TFMA.SpecBuild.C119_multi_class"], "note": "Proved for lists, and for dictionaries without query key and output weights (C119_asked_partial, C119_counted_once, C119_refused, C119_multi_class). False: with dictionaries the query key and the output weights are dropped (C119_dropped_fails), and an empty dictionary makes the list given as the other argument disappear, together with the counts (C119_empty_dict_fails)."},
  {"property": "C120", "status": "partial", "theorems": ["TFMA.TfSpecs.C120_runs_partial", "TFMA.TfSpecs.C120_once", "TFMA.TfSpecs.C120_accepted", "TFMA.TfSpecs.C120_accepted_keras", "TFMA.TfSpecs.C120_padding", "TFMA.TfSpecs.C120_distinct_partial", "TFMA.TfSpecs.C120_overwritten_fails"], "note": "Proved for specs that do not combine a binarization with an aggregation without type (see C80); distinct keys are proved for evaluations without aggregation (C120_distinct_partial). False with aggregations: the default specs of a multi-class model have two metrics named loss, and only the micro averaged binary one is reported (C120_overwritten_fails). Keras metrics are given by their behaviour."},
  {"property": "C121", "status": "partial", "theorems": ["TFMA.MetricConfigs.C121_one", "TFMA.MetricConfigs.C121_all_partial", "TFMA.MetricConfigs.C121_accepted_partial", "TFMA.MetricConfigs.C121_custom_loss_fails", "TFMA.MetricConfigs.C121_same_name_fails", "TFMA.MetricConfigs.C121_taken_over_fails"], "note": "Proved for metric_instance (C121_one), and for to_computations if a class name is not used with two modules and all losses are from Keras own module (C121_all_partial, C121_accepted_partial). False otherwise: losses of another module are looked for among the metrics and refused (C121_custom_loss_fails); of two classes with the same name one is used for both configs, the first for TFMA metrics, the last for Keras metrics (C121_same_name_fails), also across specs (C121_taken_over_fails). What Keras finds by name and accepts as settings is a parameter."},
  {"property": "C122", "status": "partial", "theorems": ["TFMA.MetricConfigs.C122_config_partial", "TFMA.MetricConfigs.C122_keras_again", "TFMA.MetricConfigs.C122_tfma_again", "TFMA.MetricConfigs.C122_replaced", "TFMA.MetricConfigs.C122_unsupported_fails", "TFMA.MetricConfigs.C122_custom_tfma_fails", "TFMA.MetricConfigs.C122_wrapped_fails", "TFMA.MetricConfigs.C122_misspelled_fails"], "note": "Proved: what the config of a Keras object is, setting by setting (C122_config_partial), that Keras objects of classes TFMA does not have come back (C122_keras_again) and registered TFMA metrics do (C122_tfma_again), and that Keras objects of classes TFMA has are always replaced (C122_replaced). False: with settings TFMA does not have the object is handed to TFMA all the same (C122_unsupported_fails); TFMA metrics that are not registered are serialized without module and not found again (C122_custom_tfma_fails); metrics that wrap a function are serialized under a class name their module need not have (C122_wrapped_fails); three class names of the table are misspelled, so that reduction is kept for these (C122_misspelled_fails). JSON texts are not modelled."},
  {"property": "C123", "status": "proved", "theorems": ["TFMA.SqlSlices.C123_slices", "TFMA.SqlSlices.C123_refused", "TFMA.SqlSlices.C123_first_model", "TFMA.SqlSlices.C123_overall_fails", "TFMA.SqlSlices.C123_order_fails"], "note": "For batches whose columns have a value for each example (C123_slices, C123_refused, C123_first_model). What a statement returns is a parameter. The two configs that config.proto calls equal to statements are not: C123_overall_fails (a spec with only a statement also describes the overall slice), C123_order_fails (keys of statements keep the order of the statement, keys of specs are sorted)."},
  {"property": "C124", "status": "partial", "theorems": ["TFMA.SharedInputs.C124_shared_partial", "TFMA.SharedInputs.C124_enough", "TFMA.SharedInputs.C124_refused", "TFMA.SharedInputs.C124_preprocessors", "TFMA.SharedInputs.C124_combined_partial", "TFMA.SharedInputs.C124_combined_fails", "TFMA.SharedInputs.C124_twice_fails", "TFMA.SharedInputs.C124_lost_fails"], "note": "Proved for filters that are not empty. False for empty filters (C124_twice_fails: each example is handed over twice, once empty and once whole; C124_lost_fails: what was asked for before is forgotten when another filter follows) and for combined features with names of models (C124_combined_fails: raw features are looked up by the name of the model and lost)."},
  {"property": "C125", "status": "partial", "theorems": ["TFMA.Queries.C125_queries", "TFMA.Queries.C125_same_query", "TFMA.Queries.C125_refused", "TFMA.Queries.C125_documents_partial", "TFMA.Queries.C125_statistics_partial", "TFMA.Queries.C125_specs", "TFMA.Queries.C125_no_specs", "TFMA.Queries.C125_default_metrics", "TFMA.Queries.C125_documents_models_fails", "TFMA.Queries.C125_documents_lengths_fails", "TFMA.Queries.C125_default_metrics_fails"], "note": "Queries, slices, refusal and specs are proved in full. The number of documents is proved for predictions of one shape (one model, one output) without weights; false with several models (C125_documents_models_fails: the number of models) and with predictions of different lengths (C125_documents_lengths_fails: always 3). The metrics saved with the models are dropped if every spec has a query key (C125_default_metrics says exactly when, C125_default_metrics_fails)."},
  {"property": "C126", "status": "partial", "theorems": ["TFMA.ResultFiles.C126_round_trip", "TFMA.ResultFiles.C126_format_refused", "TFMA.ResultFiles.C126_run", "TFMA.ResultFiles.C126_replaced_partial", "TFMA.ResultFiles.C126_earlier_fails", "TFMA.ResultFiles.C126_without_suffix", "TFMA.ResultFiles.C126_default_format", "TFMA.ResultFiles.C126_one_verdict", "TFMA.ResultFiles.C126_other_format", "TFMA.ResultFiles.C126_absent", "TFMA.ResultFiles.C126_slices_partial", "TFMA.ResultFiles.C126_config", "TFMA.ResultFiles.C126_config_refused", "TFMA.ResultFiles.C126_config_format_fails", "TFMA.ResultFiles.C126_config_stale_fails", "TFMA.ResultFiles.C126_config_version", "TFMA.ResultFiles.C126_config_old", "TFMA.ResultFiles.C126_parquet_columns", "TFMA.ResultFiles.C126_parquet_column_fails"], "note": "Proved for a directory without earlier results (C126_run) and where the new files replace the earlier ones (C126_replaced_partial). False if an earlier run had another number of shards: both are loaded (C126_earlier_fails). A config written in the accepted format \"\" is not found (C126_config_format_fails), with eval_config disabled an earlier one is loaded (C126_config_stale_fails). The slice_key column of Parquet files does not identify the slice (C126_parquet_column_fails)."},
  {"property": "C127", "status": "partial", "theorems": ["TFMA.AttributionMetrics.C127_select", "TFMA.AttributionMetrics.C127_total", "TFMA.AttributionMetrics.C127_accepted", "TFMA.AttributionMetrics.C127_missing", "TFMA.AttributionMetrics.C127_mean_partial", "TFMA.AttributionMetrics.C127_small_weights_fails", "TFMA.AttributionMetrics.C127_written", "TFMA.AttributionMetrics.C127_unknown_fails"], "note": "C127_select, C127_total, C127_accepted, C127_missing and C127_written are proved in full; means for total weights whose absolute value exceeds 1e-8 (C127_mean_partial). For smaller weights the mean is reported as not a number although it is defined (C127_small_weights_fails). A value that is no number makes the writer of attributions fail with an AttributeError where the writer of metrics records an unknown type (C127_unknown_fails)."},
  {"property": "C128", "status": "partial", "theorems": ["TFMA.Comparisons.C128_compared", "TFMA.Comparisons.C128_keys", "TFMA.Comparisons.C128_baseline", "TFMA.Comparisons.C128_not_shared", "TFMA.Comparisons.C128_rate_partial", "TFMA.Comparisons.C128_report_partial", "TFMA.Comparisons.C128_tasks", "TFMA.Comparisons.C128_parts", "TFMA.Comparisons.C128_bounds", "TFMA.Comparisons.C128_boolean", "TFMA.Comparisons.C128_sub_key_fails", "TFMA.Comparisons.C128_sub_keys_same", "TFMA.Comparisons.C128_no_weight_fails", "TFMA.Comparisons.C128_no_baseline_fails"], "note": "Proved where collections of accumulators are single pass iterators (C128_rate_partial, C128_report_partial; for lists see C16). False for sub keys, which have no effect (C128_sub_key_fails, C128_sub_keys_same); only the first of several predictions is compared (C128_compared). Total weights of zero make the evaluation fail (C128_no_weight_fails). Without a baseline a single model is compared with itself (C128_no_baseline_fails)."},
  {"property": "C129", "status": "partial", "theorems": ["TFMA.StdExtracts.C129_set_get", "TFMA.StdExtracts.C129_set_others", "TFMA.StdExtracts.C129_other_extracts", "TFMA.StdExtracts.C129_set_fails", "TFMA.StdExtracts.C129_set_error", "TFMA.StdExtracts.C129_missing_model", "TFMA.StdExtracts.C129_unnamed", "TFMA.StdExtracts.C129_key_paths", "TFMA.StdExtracts.C129_key_paths_once", "TFMA.StdExtracts.C129_names_sound", "TFMA.StdExtracts.C129_names", "TFMA.StdExtracts.C129_names_once", "TFMA.StdExtracts.C129_dict_predictions_fails", "TFMA.StdExtracts.C129_same_name_fails", "TFMA.StdExtracts.C129_empty_name_fails", "TFMA.StdExtracts.C129_metric_inputs"], "note": "The values got after setting, the failures, the key paths and the listed names are proved for all inputs (names not empty, values no empty dictionaries). False in general: the empty name counts as no name for setting but as a name for getting (C129_empty_name_fails); predictions of an output that are dictionaries are not listed or listed as a model (C129_dict_predictions_fails); an output with the name of the model is listed as a model (C129_same_name_fails). For a missing model the whole dictionary is got (C129_missing_model)."},
  {"property": "C130", "status": "partial", "theorems": ["TFMA.Confidence.C130_slice", "TFMA.Confidence.C130_model_difference", "TFMA.Confidence.C130_pair", "TFMA.Confidence.C130_pair_twice_fails", "TFMA.Confidence.C130_pair_missing", "TFMA.Confidence.C130_missing", "TFMA.Confidence.C130_failure", "TFMA.Confidence.C130_method", "TFMA.Confidence.C130_bootstrap_accepted", "TFMA.Confidence.C130_bootstrap_refused", "TFMA.Confidence.C130_default_method"], "note": "Proved for slices, differences between models and pairs that one cross slicing spec asks for, for both methods. False in general: a pair that two cross slicing specs ask for has no interval, because its samples are counted twice (C130_pair_twice_fails)."},
  {"property": "C131", "status": "partial", "theorems": ["TFMA.TopLevel.C131_model", "TFMA.TopLevel.C131_model_no_config", "TFMA.TopLevel.C131_eval_tag_fails", "TFMA.TopLevel.C131_results", "TFMA.TopLevel.C131_refused", "TFMA.TopLevel.C131_unverified", "TFMA.TopLevel.C131_documented", "TFMA.TopLevel.C131_documented_single", "TFMA.TopLevel.C131_default_config", "TFMA.TopLevel.C131_each", "TFMA.TopLevel.C131_shared_path_fails", "TFMA.TopLevel.C131_single", "TFMA.TopLevel.C131_single_type_fails", "TFMA.TopLevel.C131_raw", "TFMA.TopLevel.C131_raw_columns", "TFMA.TopLevel.C131_raw_no_config_fails", "TFMA.TopLevel.C131_raw_no_specs_fails", "TFMA.TopLevel.C131_raw_several_fails"], "note": "Proved for all runs into a directory without results (C131_results, C131_documented, C131_documented_single), for models (C131_model) and data frames with a model spec (C131_raw). False: tags do not determine the type (C131_eval_tag_fails); single_model_analysis ignores the model type of its configuration (C131_single_type_fails); with an output path, later runs of multiple_model_analysis can include records of earlier ones (C131_shared_path_fails); analyze_raw_data without model specs uses no columns (C131_raw_no_specs_fails), without a configuration is an AttributeError (C131_raw_no_config_fails) and with two models and no baseline returns no metrics (C131_raw_several_fails)."},
  {"property": "C132", "status": "partial", "theorems": ["TFMA.DataFrames.C132_cells", "TFMA.DataFrames.C132_key", "TFMA.DataFrames.C132_accepted", "TFMA.DataFrames.C132_same_keys", "TFMA.DataFrames.C132_slices_partial", "TFMA.DataFrames.C132_columns", "TFMA.DataFrames.C132_rows", "TFMA.DataFrames.C132_metrics", "TFMA.DataFrames.C132_plots_fail", "TFMA.DataFrames.C132_texts_fail"], "note": "Proved for all frames (C132_cells, C132_key, C132_accepted, C132_same_keys), for the frames of metrics (C132_rows, C132_metrics, C132_columns) and plain texts of slices (C132_slices_partial). False: frames with the plots of two models cannot be pivoted, as all rows of a plot have the same slice and key (C132_plots_fail); slices whose names have colons and semicolons can have the same text (C132_texts_fail)."},
  {"property": "C133", "status": "partial", "theorems": ["TFMA.MultiClass.C133_elementwise", "TFMA.MultiClass.C133_elementwise_succeeds", "TFMA.MultiClass.C133_broadcast", "TFMA.MultiClass.C133_other_operand", "TFMA.MultiClass.C133_written", "TFMA.MultiClass.C133_evenly_spaced", "TFMA.MultiClass.C133_metric_thresholds", "TFMA.MultiClass.C133_plot_thresholds", "TFMA.MultiClass.C133_default_thresholds", "TFMA.MultiClass.C133_keys", "TFMA.MultiClass.C133_first_thresholds", "TFMA.MultiClass.C133_own_thresholds_partial", "TFMA.MultiClass.C133_thresholds_ignored"], "note": "Proved: arithmetic, written form, thresholds of one metric or plot, and exactly which thresholds are used by several (C133_first_thresholds: those of the first metric or plot of the same output). The claim about several metrics and plots is false: the matrices are kept under a key without thresholds, so that the evaluator drops all but the first computation (C133_thresholds_ignored: a plot next to a metric with default settings shows the threshold one half); C133_own_thresholds_partial has the case of equal thresholds."},
  {"property": "C134", "status": "partial", "theorems": ["TFMA.Features.C134_columns", "TFMA.Features.C134_representations", "TFMA.Features.C134_nothing_else", "TFMA.Features.C134_rest", "TFMA.Features.C134_inputs", "TFMA.Features.C134_no_batch", "TFMA.Features.C134_accepted", "TFMA.Features.C134_errors", "TFMA.Features.C134_incoming_partial", "TFMA.Features.C134_incoming_changed"], "note": "Proved: features by column and by representation, nothing else changes, inputs, failures. False and kept as partial: the incoming extracts are changed when they hold features beside the record batch (C134_incoming_changed), since only the outer dictionary is copied. An existing input is replaced by None when the batch has no raw column, and inputs no longer belong to their rows when a serialized example is missing (C134_rest, example)."},
  {"property": "C135", "status": "proved", "theorems": ["TFMA.BulkInference.C135_logs", "TFMA.BulkInference.C135_logs_refused", "TFMA.BulkInference.C135_predictions", "TFMA.BulkInference.C135_input_refused", "TFMA.BulkInference.C135_models", "TFMA.BulkInference.C135_valid_config", "TFMA.BulkInference.C135_valid_decides", "TFMA.BulkInference.C135_valid_no_models", "TFMA.BulkInference.C135_raw_logs", "TFMA.BulkInference.C135_same_name"], "note": "Model specs and models have distinct names (two specs of one name leave the second, C135_same_name). What follows the insertion, regrouping into batches and merge_extracts, is the subject of C13 and C72."},
  {"property": "C136", "status": "partial", "theorems": ["TFMA.KerasMatrices.C136_counted", "TFMA.KerasMatrices.C136_evenly_spaced_partial", "TFMA.KerasMatrices.C136_grid", "TFMA.KerasMatrices.C136_top_k_partial", "TFMA.KerasMatrices.C136_counts_with", "TFMA.KerasMatrices.C136_refused", "TFMA.KerasMatrices.C136_rounding_changes", "TFMA.KerasMatrices.C136_logits", "TFMA.KerasMatrices.C136_repeated_threshold"], "note": "Full for different thresholds that are not evenly spaced (C136_counted). Evenly spaced thresholds, the default of AUC and the AtSpecificity metrics, count predictions rounded down to 1/10000 (C136_evenly_spaced_partial up to 1001 thresholds, C136_rounding_changes shows a different value); AUC(from_logits=True) counts logits as probabilities (C136_logits); repeated thresholds count twice (C136_repeated_threshold). Top k by binarization: C136_top_k_partial."},
  {"property": "C137", "status": "partial", "theorems": ["TFMA.KerasMatrices.C137_at_thresholds", "TFMA.KerasMatrices.C137_at_evenly_spaced_partial", "TFMA.KerasMatrices.C137_metric", "TFMA.KerasMatrices.C137_number_partial", "TFMA.KerasMatrices.C137_top_k_partial"], "note": "Full for different thresholds that are not evenly spaced (C137_at_thresholds, C137_metric). Evenly spaced ones and numbers of thresholds up to 1001 count predictions rounded down to 1/10000 (the claim for the predictions themselves is false, C136_rounding_changes); the top k part has the conditions of C54."},
  {"property": "C138", "status": "partial", "theorems": ["TFMA.TFLite.C138_predictions", "TFMA.TFLite.C138_no_memory", "TFMA.TFLite.C138_one_model", "TFMA.TFLite.C138_several_models", "TFMA.TFLite.C138_input_name", "TFMA.TFLite.C138_missing_refused", "TFMA.TFLite.C138_quantized_partial", "TFMA.TFLite.C138_not_nearest"], "note": "C138_predictions characterizes exactly when a batch is answered and how; C138_no_memory covers arbitrary interpreter states. The default is refused for inputs of other integer types than int64, such as the int8 and uint8 inputs of quantized models (C138_missing_refused). Quantizing truncates towards zero instead of taking the nearest step (C138_quantized_partial, C138_not_nearest). Numbers are exact; values outside of the integer type, per-channel quantization and batches without examples are not covered."},
  {"property": "C139", "status": "proved", "theorems": ["TFMA.TFLite.C139_predictions", "TFMA.TFLite.C139_shifted", "TFMA.TFLite.C139_name"], "note": "For features that are arrays, as the property says. C139_shifted: rows of different sizes (object arrays) can shift predictions to other examples without an error. The files exchanged with the binary and its process are not modelled."},
  {"property": "C140", "status": "partial", "theorems": ["TFMA.Detection.C140_precision_recall_partial", "TFMA.Detection.C140_default", "TFMA.Detection.C140_at_recall_partial", "TFMA.Detection.C140_recalls", "TFMA.Detection.C140_accepted", "TFMA.Detection.C140_number", "TFMA.Detection.C140_precision_at_recall_bound", "TFMA.Detection.C140_finds_nothing"], "note": "C140_precision_recall_partial and C140_at_recall_partial hold for given thresholds that are not negative. With a number of thresholds, which is the default of the metrics at a recall, the first threshold is slightly negative and counts ground truths that were not found as found (C140_number); precision at recall is then at least truths/(truths + wrong detections) for every recall (C140_precision_at_recall_bound) and 1 for a model that detects nothing (C140_finds_nothing). Numbers are exact."},
  {"property": "C141", "status": "partial", "theorems": ["TFMA.QueryMetrics.C141_ndcg", "TFMA.QueryMetrics.C141_ndcg_accepted", "TFMA.QueryMetrics.C141_min_label_value", "TFMA.QueryMetrics.C141_label_key", "TFMA.QueryMetrics.C141_min_label_accepted", "TFMA.QueryMetrics.C141_min_label_partial", "TFMA.QueryMetrics.C141_min_label_not_weighted", "TFMA.QueryMetrics.C141_statistics"], "note": "nDCG, statistics and acceptance hold. The minimum label position is the mean only without weights (C141_min_label_partial): positions are not multiplied by the weights (C141_min_label_value), so that with equal weights w the value is the mean divided by w (C141_min_label_not_weighted). Numbers are exact, NaN is not covered; the logarithm is any positive increasing function."},
  {"property": "C142", "status": "partial", "theorems": ["TFMA.LegacyBootstrap.C142_slice_partial", "TFMA.LegacyBootstrap.C142_all_nan_fails", "TFMA.LegacyBootstrap.C142_one_sample_fails", "TFMA.LegacyBootstrap.C142_refused", "TFMA.LegacyBootstrap.C142_shapes", "TFMA.LegacyBootstrap.C142_order", "TFMA.LegacyBootstrap.C142_number", "TFMA.LegacyBootstrap.C142_slices", "TFMA.LegacyBootstrap.C142_lost_slice_fails"], "note": "Holds for slices in at least two samples, at numbers that are not NaN in all samples (C142_slice_partial). The value in all data is lost if the number is NaN in all samples (C142_all_nan_fails), a slice in one sample is reported with its sampled metrics and no interval (C142_one_sample_fails), and a slice in no sample is not reported (C142_lost_slice_fails). Numbers are real or NaN, infinities are left out; the metrics of a sample are given."},
  {"property": "C143", "status": "partial", "theorems": ["TFMA.PlotSetup.C143_first", "TFMA.PlotSetup.C143_own_partial", "TFMA.PlotSetup.C143_detection_args", "TFMA.PlotSetup.C143_classes_fail"], "note": "Holds as long as no two plots agree in name, model, output, sub key of the matrices and use of weights (C143_own_partial). Plots which agree in these but differ in class, number of thresholds or preprocessors all show the matrices of the first of them (C143_first); for two classes of an object detection plot this is C143_classes_fail. What histograms and matrices contain is a parameter here (C18, C20 and C103 model them)."},
  {"property": "C144", "status": "partial", "theorems": ["TFMA.LegacyFeatures.C144_columns", "TFMA.LegacyFeatures.C144_own_partial", "TFMA.LegacyFeatures.C144_collision_fails", "TFMA.LegacyFeatures.C144_refused", "TFMA.LegacyFeatures.C144_empty_refused", "TFMA.LegacyFeatures.C144_example_partial", "TFMA.LegacyFeatures.C144_stale_fails", "TFMA.LegacyFeatures.C144_lost_fails", "TFMA.LegacyFeatures.C144_meta"], "note": "Proved with the exceptions shown false: values called \"labels\" and \"__labels\" (or the like) share a column and the later one is shown (C144_collision_fails); a feature of the serialized example without values gets the values of the feature before it (C144_stale_fails); without FPL and with another destination than columns the features of the example are lost silently (C144_lost_fails)."},
  {"property": "C145", "status": "partial", "theorems": ["TFMA.LegacyInputs.C145_one_model", "TFMA.LegacyInputs.C145_models", "TFMA.LegacyInputs.C145_rest", "TFMA.LegacyInputs.C145_incoming_partial", "TFMA.LegacyInputs.C145_incoming_fails", "TFMA.LegacyInputs.C145_merge_fails", "TFMA.LegacyInputs.C145_accepted"], "note": "Labels, weights, predictions and features are proved for all models. That the incoming extracts stay is proved for one model, or if they hold no labels, weights or predictions; otherwise their dictionaries are changed in place (C145_incoming_fails). Existing extracts are replaced, not merged as documented (C145_merge_fails)."},
  {"property": "C146", "status": "proved", "theorems": ["TFMA.InvertLog.C146_inverted", "TFMA.InvertLog.C146_determined", "TFMA.InvertLog.C146_limit", "TFMA.InvertLog.C146_refused", "TFMA.InvertLog.C146_side_by_side", "TFMA.InvertLog.C146_twice_fails", "TFMA.InvertLog.C146_names_fails", "TFMA.InvertLog.C146_name"], "note": "Over real numbers (no rounding). Shown false beside it: the preprocessor changes the extracts it is given, so that applying it twice inverts twice (C146_twice_fails; the evaluator copies the extracts, C146_side_by_side), and preprocessors for different models or limits have the same default name (C146_names_fails)."},
  {"property": "C147", "status": "partial", "theorems": ["TFMA.MetricCtors.C147_round_trip_partial", "TFMA.MetricCtors.C147_bleu_fails", "TFMA.MetricCtors.C147_flip_rates_fails", "TFMA.MetricCtors.C147_average_precision_fails", "TFMA.MetricCtors.C147_max_recall_fails", "TFMA.MetricCtors.C147_binary_accuracy_fails", "TFMA.MetricCtors.C147_preprocessors_fails", "TFMA.MetricCtors.C147_named", "TFMA.MetricCtors.C147_given_name", "TFMA.MetricCtors.C147_nameless"], "note": "Proved for 97 of the 103 classes and all arguments but preprocessors. Shown false of the other six: configs of Bleu, BooleanFlipRates, COCOAveragePrecision, MaxRecall and ObjectDetectionMaxRecall are always refused with TypeError, those of BinaryAccuracy if a threshold was given; preprocessors given to Precision are accepted and forgotten (C147_preprocessors_fails)."},
  {"property": "C148", "status": "partial", "theorems": ["TFMA.TensorSpecs.C148_convert", "TFMA.TensorSpecs.C148_convert_accepted", "TFMA.TensorSpecs.C148_specs", "TFMA.TensorSpecs.C148_specs_accepted", "TFMA.TensorSpecs.C148_infer_accepted", "TFMA.TensorSpecs.C148_infer_describes", "TFMA.TensorSpecs.C148_infer", "TFMA.TensorSpecs.C148_round_trip", "TFMA.TensorSpecs.C148_values_back", "TFMA.TensorSpecs.C148_two_open_fails", "TFMA.TensorSpecs.C148_empty_batch_fails", "TFMA.TensorSpecs.C148_empty_specs_fails"], "note": "Proved for specs without empty dictionaries. Shown false of the code otherwise: a spec with two open dimensions besides the batch refuses every dense value, even of the very shape asked for (C148_two_open_fails); with one open dimension empty batches are refused (C148_empty_batch_fails); an empty dictionary of specs asks for everything (C148_empty_specs_fails); values of variable length come back as sparse ones (C148_values_back). Element types and the warning about incompatible specs are not modelled."},
  {"property": "C149", "status": "partial", "theorems": ["TFMA.PerClass.C149_own_data_partial", "TFMA.PerClass.C149_accepted", "TFMA.PerClass.C149_sub_key_ignored_fails", "TFMA.PerClass.C149_dependencies", "TFMA.PerClass.C149_relative_fails", "TFMA.PerClass.C149_pearson_fails"], "note": "Proved for mean label, mean prediction, calibration, binary and categorical cross entropy and the four regression errors. Shown false of the code for the others: exact match, squared Pearson correlation and coefficient of discrimination look at all classes and report the same value under every sub key (C149_sub_key_ignored_fails, C149_pearson_fails); the relative coefficient of discrimination reports nothing under a sub key (C149_relative_fails). What a combiner makes of its inputs is a parameter."},
  {"property": "C150", "status": "partial", "theorems": ["TFMA.InPlace.C150_probabilities_partial", "TFMA.InPlace.C150_readers_partial", "TFMA.InPlace.C150_cross_entropy", "TFMA.InPlace.C150_shared_predictions_fails"], "note": "Proved if the predictions of every example add up to one, and for any predictions if categorical cross entropy of probabilities is not computed without sub key; cross entropy itself is the same in any company unless predictions add up to zero. Shown false of the code otherwise: categorical cross entropy divides the predictions of the example in place, so that metrics listed behind it and all metrics of later slices see other predictions (C150_shared_predictions_fails). Without rounding; predictions in dictionaries of models and outputs and runners that copy examples between slices are not modelled."},
  {"property": "C151", "status": "partial", "theorems": ["TFMA.KeysAsked.C151_example_count", "TFMA.KeysAsked.C151_sample", "TFMA.KeysAsked.C151_once", "TFMA.KeysAsked.C151_min_label_position", "TFMA.KeysAsked.C151_min_label_position_empty_fails", "TFMA.KeysAsked.C151_ndcg_accepted", "TFMA.KeysAsked.C151_ndcg_keys", "TFMA.KeysAsked.C151_ndcg_partial", "TFMA.KeysAsked.C151_ndcg_top_k_fails", "TFMA.KeysAsked.C151_ndcg_no_sub_keys_fails", "TFMA.KeysAsked.C151_query_statistics_fails", "TFMA.KeysAsked.C151_query_statistics_models_fails"], "note": "Proved for example counts, samples and min label position, and for NDCG if sub keys say nothing but the top k; which requests NDCG accepts and which keys it reports is proved exactly. Shown false of the code: a top k is dropped if a sub key of a class has it too (C151_ndcg_top_k_fails); NDCG called without a list of sub keys fails although top k are given (C151_ndcg_no_sub_keys_fails); query statistics never carry a model or output (C151_query_statistics_fails) and refuse every query once there are several models (C151_query_statistics_models_fails); an empty list gives no min label position (C151_min_label_position_empty_fails)."},
  {"property": "C152", "status": "partial", "theorems": ["TFMA.LegacyPredict.C152_predictions_partial", "TFMA.LegacyPredict.C152_accepted", "TFMA.LegacyPredict.C152_legacy", "TFMA.LegacyPredict.C152_several_refused", "TFMA.LegacyPredict.C152_batch", "TFMA.LegacyPredict.C152_extracts_dropped_fails", "TFMA.LegacyPredict.C152_positions_fails"], "note": "Proved, with and without eval config, for models that fetch values example by example in the order of the examples, together with the exact condition under which a batch is accepted; several models without eval config are refused. Shown false of the code otherwise: predictions of a second model are matched by position and not by example (C152_positions_fails), and with an eval config everything in a batch but the serialized examples is dropped (C152_extracts_dropped_fails). The errors of TensorFlow that lead to processing one by one are ValueErrors in the model."},
  {"property": "C153", "status": "partial", "theorems": ["TFMA.ModelOutputs.C153_dense", "TFMA.ModelOutputs.C153_dense_accepted", "TFMA.ModelOutputs.C153_accepted", "TFMA.ModelOutputs.C153_outputs_partial", "TFMA.ModelOutputs.C153_models", "TFMA.ModelOutputs.C153_same_name_fails", "TFMA.ModelOutputs.C153_which_model_fails", "TFMA.ModelOutputs.C153_padding_fails"], "note": "Proved: value by value for dense, sparse and ragged tensors of any rank, with the exact condition of acceptance; what is stored for every model that answers; which models are asked. Shown false of the code: of outputs with the same name from several signatures only the last is stored (C153_same_name_fails), if only one of several models has the default signature the output does not say which one (C153_which_model_fails), and ragged outputs that differ in trailing zeros become equal (C153_padding_fails). The call of a signature is a parameter (see C109); conversions by TensorFlow (`to_dense`, `to_tensor`) are modelled from their documentation."},
  {"property": "C154", "status": "partial", "theorems": ["TFMA.StackBoxes.C154_stack", "TFMA.StackBoxes.C154_truncate_partial", "TFMA.StackBoxes.C154_truncate_missing", "TFMA.StackBoxes.C154_zero_detections_fails", "TFMA.StackBoxes.C154_float_detections_fails", "TFMA.StackBoxes.C154_image", "TFMA.StackBoxes.C154_columns", "TFMA.StackBoxes.C154_boxes", "TFMA.StackBoxes.C154_missing_column_fails"], "note": "Proved: exactly when and to what columns are stacked, what each row and each box holds, which rows of an image are matched, and truncation to a positive number of detections. Shown false of the code: if the number of detections is zero nothing is left out, so padding is matched as detections (C154_zero_detections_fails); a number of a floating point type is refused (C154_float_detections_fails); if missing columns are allowed, one that is missing drops all boxes (C154_missing_column_fails). Labels or predictions that are an array of at most one number count as empty."},
  {"property": "C155", "status": "proved", "theorems": ["TFMA.PrivateNames.C155_apart", "TFMA.PrivateNames.C155_same", "TFMA.PrivateNames.C155_text_fails", "TFMA.PrivateNames.C155_boxes"], "note": "Proved by parsing the generated name, for texts in which none of the argument names seems to begin (a comma, the argument name and an equals sign); this holds for the names of preprocessors that are themselves arguments. Without it, and for names that differ only in the leading underscore, names coincide (C155_text_fails). `str` of numbers is a parameter that is supposed to be injective and without equals signs. Discharges the assumption of C107 about names."},
  {"property": "C156", "status": "proved", "theorems": ["TFMA.SliceNames.C156_overall", "TFMA.SliceNames.C156_single", "TFMA.SliceNames.C156_cross", "TFMA.SliceNames.C156_apart", "TFMA.SliceNames.C156_typed", "TFMA.SliceNames.C156_column", "TFMA.SliceNames.C156_view", "TFMA.SliceNames.C156_separator_fails", "TFMA.SliceNames.C156_colon_fails", "TFMA.SliceNames.C156_number_fails"], "note": "Proved for columns without colons and columns and values without \"_X\". That no part contains the whole separator \"_X_\" is not enough: columns a_X and b are named like columns a and X_b (C156_separator_fails; also C156_colon_fails, C156_number_fails). `str` of numbers is a parameter, injective on integers and on floats where stated."},
  {"property": "C157", "status": "proved", "theorems": ["TFMA.KwargsOnly.C157_wrap", "TFMA.KwargsOnly.C157_function", "TFMA.KwargsOnly.C157_method", "TFMA.KwargsOnly.C157_positional", "TFMA.KwargsOnly.C157_no_parameters_fails", "TFMA.KwargsOnly.C157_keyword_only_fails", "TFMA.KwargsOnly.C157_self_twice_fails"], "note": "Proved for functions whose parameters can be given both by position and by keyword. A function without parameters cannot be wrapped (IndexError, C157_no_parameters_fails), parameters behind * cannot be given any more (C157_keyword_only_fails) and a self given by keyword is replaced without complaint (C157_self_twice_fails)."},
  {"property": "C158", "status": "proved", "theorems": ["TFMA.ArrayValues.C158_array", "TFMA.ArrayValues.C158_accepted", "TFMA.ArrayValues.C158_apart", "TFMA.ArrayValues.C158_value", "TFMA.ArrayValues.C158_value_accepted", "TFMA.ArrayValues.C158_type_fails", "TFMA.ArrayValues.C158_text_fails", "TFMA.ArrayValues.C158_bytes_fails"], "note": "The type of other arrays is lost (C158_type_fails: unsigned or short integers become texts), as is whether a value was text or bytes (C158_text_fails); an array of bytes with one byte that is not ASCII raises an error (C158_bytes_fails). Numbers are those a double holds; integers are not rounded."},
  {"property": "C159", "status": "proved", "theorems": ["TFMA.EvalResults.C159_metrics", "TFMA.EvalResults.C159_metrics_refused", "TFMA.EvalResults.C159_attributions", "TFMA.EvalResults.C159_attributions_refused", "TFMA.EvalResults.C159_names", "TFMA.EvalResults.C159_named", "TFMA.EvalResults.C159_twice_fails"], "note": "With a slice twice the accessors disagree: the one for all slices shows the last record, the one for a slice the first (C159_twice_fails)."},
  {"property": "C160", "status": "proved", "theorems": ["TFMA.Filters.C160_default", "TFMA.Filters.C160_include", "TFMA.Filters.C160_exclude", "TFMA.Filters.C160_filters", "TFMA.Filters.C160_both", "TFMA.Filters.C160_empty_fails"], "note": "Including or excluding an empty collection keeps everything, the inputs as well, unlike giving nothing (C160_empty_fails)."},
  {"property": "C161", "status": "proved", "theorems": ["TFMA.Loading.C161_models", "TFMA.Loading.C161_once", "TFMA.Loading.C161_measured", "TFMA.Loading.C161_reported", "TFMA.Loading.C161_flushed", "TFMA.Loading.C161_combine", "TFMA.Loading.C161_several_fails"], "note": "A DoFn with several models reports only the load time of the one it loaded last (C161_several_fails)."},
  {"property": "C162", "status": "proved", "theorems": ["TFMA.Counters.C162_instances", "TFMA.Counters.C162_distinct", "TFMA.Counters.C162_slices", "TFMA.Counters.C162_slices_fails", "TFMA.Counters.C162_metrics", "TFMA.Counters.C162_query_fails"], "note": "Columns with underscores can share a counter (C162_slices_fails); metrics of specs with a query key are always counted as model_agnostic, although there are models (C162_query_fails)."},
  {"property": "C163", "status": "proved", "theorems": ["TFMA.WorkerMetrics.C163_rebuilt", "TFMA.WorkerMetrics.C163_local_fails", "TFMA.WorkerMetrics.C163_function", "TFMA.WorkerMetrics.C163_same_name_fails", "TFMA.WorkerMetrics.C163_shadow_fails"], "note": "Classes are loaded by name only: of two custom classes with the same name the later is computed twice (C163_same_name_fails), a custom class takes the place of one of Keras with its name (C163_shadow_fails). A class that is not at the top of its module fails the whole combiner (C163_local_fails)."},
  {"property": "C164", "status": "proved", "theorems": ["TFMA.SlicingColumn.C164_column", "TFMA.SlicingColumn.C164_computed", "TFMA.SlicingColumn.C164_given_fails", "TFMA.SlicingColumn.C164_by_output_fails"], "note": "For a config written by hand with a key of example weights but without WeightedExampleCount the column is not among the results (C164_given_fails); weights by output are ignored (C164_by_output_fails). C164_computed has the conditions of C119_asked_partial."},
  {"property": "C165", "status": "proved", "theorems": ["TFMA.AttributionViews.C165_shown", "TFMA.AttributionViews.C165_missing_fails", "TFMA.AttributionViews.C165_mixed_fails"], "note": "One sub key without the metric makes the whole view fail (C165_missing_fails); without a name sub keys with different metrics are shown side by side (C165_mixed_fails)."},
  {"property": "C166", "status": "proved", "theorems": ["TFMA.LabelRange.C166_refused", "TFMA.LabelRange.C166_range", "TFMA.LabelRange.C166_config_fails"], "note": "Looking up the label of an output that has none among labels by output adds that output to the label keys of the config, with an empty key (C166_config_fails); that reading a missing key of a map of texts adds it is how protocol buffers behave and is assumed."},
  {"property": "C167", "status": "proved", "theorems": ["TFMA.MetricsGraph.C167_update", "TFMA.MetricsGraph.C167_retried", "TFMA.MetricsGraph.C167_not_retried_fails", "TFMA.MetricsGraph.C167_any_order", "TFMA.MetricsGraph.C167_separate_fails", "TFMA.MetricsGraph.C167_values", "TFMA.MetricsGraph.C167_round_trip", "TFMA.MetricsGraph.C167_registered", "TFMA.MetricsGraph.C167_in_vain_fails"], "note": "An exception without arguments (as those of TensorFlow, which is assumed) is raised again as a RuntimeError, which is not tried again (C167_not_retried_fails). Setting variables and reading values in two calls can mix threads (C167_separate_fails). Metrics that are registered before one whose name is taken stay registered but are never updated (C167_in_vain_fails). What the session of TensorFlow does is arbitrary, except that a batch that succeeds counts like its examples one by one."},
  {"property": "C168", "status": "proved", "theorems": ["TFMA.SpecRepresentations.C168_represented", "TFMA.SpecRepresentations.C168_rank_fails"], "note": "A scalar and a vector over the batch have the same representation, so the spec is not recoverable (C168_rank_fails)."},
  {"property": "C169", "status": "proved", "theorems": ["TFMA.SpecRepresentations.C169_validated", "TFMA.SpecRepresentations.C169_replaced"], "note": "The output of an earlier validator with the same key is lost, as documented (C169_replaced)."},
  {"property": "C170", "status": "partial", "theorems": ["TFMA.Identity.C170_keys", "TFMA.Identity.C170_mixed_fails", "TFMA.Identity.C170_preprocessors_partial", "TFMA.Identity.C170_preprocessor_hash_fails", "TFMA.Identity.C170_equal", "TFMA.Identity.C170_equivalence", "TFMA.Identity.C170_not_unequal_partial", "TFMA.Identity.C170_kinds", "TFMA.Identity.C170_equal_and_unequal_fails", "TFMA.Identity.C170_neither_fails", "TFMA.Identity.C170_stage_fails", "TFMA.Identity.C170_order_fails"], "note": "The claim is false of the code in these respects: preprocessors cannot be hashed at all (C170_preprocessor_hash_fails); computations can be both equal and unequal (C170_equal_and_unequal_fails) or neither (C170_neither_fails); sub keys equal aggregation types of the same numbers (C170_mixed_fails); a computation that runs after the confidence intervals equals one that runs before (C170_stage_fails); keys in another order make another computation (C170_order_fails). The rest is proved."},
  {"property": "C171", "status": "partial", "theorems": ["TFMA.SpecProtos.C171_round_trip_partial", "TFMA.SpecProtos.C171_config_partial", "TFMA.SpecProtos.C171_settled_partial", "TFMA.SpecProtos.C171_exponent_fails", "TFMA.SpecProtos.C171_two_values_fails"], "note": "The claim is false of the code in two respects: floats written with an exponent and no point (1e22) come back as texts, and the slices of that number are lost (C171_exponent_fails); of two values of one feature the message keeps one (C171_two_values_fails). Proved for one value per feature and numbers whose text is recognised (C171_round_trip_partial, C171_config_partial, C171_settled_partial)."},
  {"property": "C172", "status": "partial", "theorems": ["TFMA.PreprocessingNames.C172_name", "TFMA.PreprocessingNames.C172_refused", "TFMA.PreprocessingNames.C172_applied", "TFMA.PreprocessingNames.C172_without", "TFMA.PreprocessingNames.C172_outputs_partial", "TFMA.PreprocessingNames.C172_same_function_fails", "TFMA.PreprocessingNames.C172_missing_feature_fails", "TFMA.PreprocessingNames.C172_model_function_fails", "TFMA.PreprocessingNames.C172_module_name_fails"], "note": "The claim is false of the code in these respects: of one function with two features only the last output is kept (C172_same_function_fails); with a feature that does not exist the function is applied to the serialized examples (C172_missing_feature_fails); with functions of the model the feature is ignored (C172_model_function_fails); names of modules of the package hide functions of the model (C172_module_name_fails). The rest is proved."}
]}
