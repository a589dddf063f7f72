{"id": "C01", "title": "A slicing spec generates exactly the slices it describes", "statement": "Given a slicing spec (fixed feature/value pairs plus columns) and the feature dictionaries of one example, the generated slice keys are exactly the sorted tuples obtained by taking the fixed pairs and, for every column, one of the values that the example has for that column; if any fixed pair is not present in the example or any column is missing, no slice key is generated, and the overall spec always generates exactly the empty slice key.", "quantifier": "every slicing spec, every list of feature dictionaries (any number of dictionaries, features and values per feature)", "why_tests_cant": "The number of specs and multi-valued feature dictionaries is unbounded and the cartesian product grows without limit; tests only check a handful of hand-written examples.", "anchors": ["tensorflow_model_analysis/slicer/slicer_lib.py:SingleSliceSpec.generate_slices", "tensorflow_model_analysis/slicer/slice_accessor.py:SliceAccessor", "tensorflow_model_analysis/slicer/slicer_lib.py:get_slices_for_features_dicts"]}
{"id": "C02", "title": "A generated slice key is applicable to the spec that generated it", "statement": "Every slice key produced for an example by a slicing spec is reported as applicable by the same spec's is_slice_applicable check, so thresholds configured for the spec are always evaluated on the slices the spec created.", "quantifier": "every slicing spec, every example, every slice key generated", "why_tests_cant": "Requires agreement between two separately written functions on all specs and values, including text/number conversions.", "anchors": ["tensorflow_model_analysis/slicer/slicer_lib.py:SingleSliceSpec.is_slice_applicable", "tensorflow_model_analysis/slicer/slicer_lib.py:SingleSliceSpec.generate_slices", "tensorflow_model_analysis/slicer/slicer_lib.py:_to_type"]}
{"id": "C03", "title": "Slice applicability is decided by the set of columns and pairs, not by their order", "statement": "A slice key whose (column, value) entries are distinct is applicable to a spec exactly when its entries can be split into the spec's fixed pairs (each once) and one entry for every column of the spec; permuting the entries of a slice key never changes the answer, and an overall spec is applicable only to the overall slice.", "quantifier": "every slicing spec and every slice key, every permutation of the key", "why_tests_cant": "Order independence is a statement over all permutations of arbitrary keys.", "anchors": ["tensorflow_model_analysis/slicer/slicer_lib.py:SingleSliceSpec.is_slice_applicable"]}
{"id": "C04", "title": "Each example counts once in every distinct slice it belongs to", "statement": "After fan-out every example appears exactly once under each distinct slice key generated by any of the configured specs, no matter how many specs (or repeated values) generate that key; the number of elements under a slice key is the number of examples belonging to it.", "quantifier": "every list of slicing specs, every sequence of examples", "why_tests_cant": "Double counting shows up only for particular overlaps of specs and multi-valued features; the claim is over all of them.", "anchors": ["tensorflow_model_analysis/slicer/slicer_lib.py:_FanoutSlicesDoFn", "tensorflow_model_analysis/extractors/slice_key_extractor.py:ExtractSliceKeysFn.process", "tensorflow_model_analysis/slicer/slicer_lib.py:get_slices_for_features_dicts"]}
{"id": "C05", "title": "Small slices are never reported when a minimum slice size is configured", "statement": "With a minimum slice size configured, the metrics of a slice other than the overall slice are passed on unchanged if at least that many examples fell in the slice and are otherwise replaced by an error entry; no slice disappears and none is duplicated.", "quantifier": "every collection of slices, counts and metrics, every minimum size; slice keys include the cross-slice keys the pipeline creates", "why_tests_cant": "Privacy style guarantee over all data sets; unit tests sample a couple of sizes.", "anchors": ["tensorflow_model_analysis/slicer/slicer_lib.py:FilterOutSlices", "tensorflow_model_analysis/evaluators/metrics_plots_and_validations_evaluator.py:_ComputeMetricsAndPlots"]}
{"id": "C06", "title": "Cross-slice keys and ordinary slice keys are never confused", "statement": "For every well formed ordinary slice key the classifier says it is not a cross-slice key and for every pair of well formed ordinary slice keys it says the pair is a cross-slice key; anything else is rejected with an error.", "quantifier": "every well formed slice key or pair of slice keys (any length, any value types)", "why_tests_cant": "The two shapes are both tuples of tuples; ambiguity would appear only for particular lengths/values.", "anchors": ["tensorflow_model_analysis/slicer/slicer_lib.py:is_cross_slice_key", "tensorflow_model_analysis/slicer/slicer_lib.py:get_slice_key_type"]}
{"id": "C07", "title": "Slice keys survive serialization", "statement": "Serializing a slice key (or cross-slice key) to its protobuf form and reading it back yields the same key with the same column names, value types and values in the same order, so that two different slices are never stored under the same key.", "quantifier": "every slice key with text, integer or float values, every pair of such keys", "why_tests_cant": "Round trip over all keys, including empty ones and values that look like other types.", "anchors": ["tensorflow_model_analysis/slicer/slicer_lib.py:serialize_slice_key", "tensorflow_model_analysis/slicer/slicer_lib.py:deserialize_slice_key", "tensorflow_model_analysis/slicer/slicer_lib.py:serialize_cross_slice_key", "tensorflow_model_analysis/slicer/slicer_lib.py:deserialize_cross_slice_key"]}
{"id": "C08", "title": "Filters select exactly the requested paths and exclusion is the complement of inclusion", "statement": "For every nested extract dictionary and filter, include_filter keeps exactly the leaf paths matched by the filter and exclude_filter removes exactly those; together they split the leaves into two disjoint parts, and applying the same filter twice is the same as applying it once.", "quantifier": "every filter and every nested extracts dictionary of any depth, including wildcard filters", "why_tests_cant": "Recursive structure of unbounded depth and width.", "anchors": ["tensorflow_model_analysis/utils/util.py:include_filter", "tensorflow_model_analysis/utils/util.py:exclude_filter"]}
{"id": "C09", "title": "Merging filters selects the union", "statement": "include_filter with merge_filters(f1, f2) keeps exactly the leaves kept by f1 or by f2, where an empty filter keeps everything.", "quantifier": "every pair of filters and every nested extracts dictionary", "why_tests_cant": "Interplay of wildcard, empty and nested filters cannot be enumerated.", "anchors": ["tensorflow_model_analysis/utils/util.py:merge_filters", "tensorflow_model_analysis/utils/util.py:include_filter"]}
{"id": "C10", "title": "Reading back a value stored under a key path returns it and nothing else changes", "statement": "copy_and_set_by_keys returns a dictionary in which get_by_keys at that path returns the stored value, every path that is not a prefix or an extension of it is unchanged, and the original dictionary is not modified.", "quantifier": "every nested dictionary, every non-empty key path, every value", "why_tests_cant": "Holds over all nested shapes and paths.", "anchors": ["tensorflow_model_analysis/utils/util.py:copy_and_set_by_keys", "tensorflow_model_analysis/utils/util.py:get_by_keys"]}
{"id": "C11", "title": "unique_key always finds a fresh name", "statement": "unique_key terminates and returns a name not contained in the list of current names; when no collision exists and no rename is requested it returns the input unchanged.", "quantifier": "every name, every list of current names", "why_tests_cant": "Termination and freshness over unbounded lists.", "anchors": ["tensorflow_model_analysis/utils/util.py:unique_key"]}
{"id": "C12", "title": "Compound keys identify the list of names they were built from", "statement": "Joining different lists of names into a compound key yields different strings.", "quantifier": "every pair of lists of names", "why_tests_cant": "Injectivity is a statement about all pairs; collisions only occur for special underscores.", "anchors": ["tensorflow_model_analysis/utils/util.py:compound_key"]}
{"id": "C13", "title": "Splitting a batched extract and merging it back loses nothing", "statement": "Splitting batched extracts into individual extracts gives one extract per row, each holding the row of every leaf (array, variable length, sparse or ragged tensor); merging the individual extracts gives back the batch.", "quantifier": "every batch size and every nested dictionary whose leaves all have the batch size as first dimension, with any sparse entries and any nesting of ragged dimensions", "why_tests_cant": "Nested structure, number of rows and leaf sizes are unbounded.", "anchors": ["tensorflow_model_analysis/utils/util.py:split_extracts", "tensorflow_model_analysis/utils/util.py:merge_extracts", "tensorflow_model_analysis/utils/util.py:_split_sparse_batch"]}
{"id": "C14", "title": "Variable length rows survive the sparse encoding", "statement": "Encoding a list of variable length rows as a VarLenTensorValue and iterating over its dense rows yields the same rows in the same order, including empty rows.", "quantifier": "every list of rows of any lengths", "why_tests_cant": "Depends on where the empty rows are; there are infinitely many patterns.", "anchors": ["tensorflow_model_analysis/api/types.py:VarLenTensorValue.from_dense_rows", "tensorflow_model_analysis/api/types.py:VarLenTensorValue.DenseRowIterator"]}
{"id": "C15", "title": "Metric values do not depend on how the runner bundles the data", "statement": "For the combiners of feature means, example counts, calibration, squared Pearson correlation, Tjur discrimination, NDCG, minimum label position, query statistics, exact match, calibration histograms, binary and multi-class confusion matrices and total attributions, splitting the examples into any number of bundles, accumulating each bundle separately and merging the accumulators in any tree shape yields the same accumulated result (or fails likewise) as accumulating all examples in one bundle.", "quantifier": "every sequence of examples, every split into bundles, every merge tree", "why_tests_cant": "Schedules are chosen by the distributed runner at run time; tests run with one or two bundles.", "anchors": ["tensorflow_model_analysis/metrics/calibration.py", "tensorflow_model_analysis/metrics/example_count.py", "tensorflow_model_analysis/metrics/stats.py", "tensorflow_model_analysis/metrics/squared_pearson_correlation.py", "tensorflow_model_analysis/metrics/tjur_discrimination.py", "tensorflow_model_analysis/metrics/ndcg.py", "tensorflow_model_analysis/metrics/min_label_position.py", "tensorflow_model_analysis/metrics/query_statistics.py", "tensorflow_model_analysis/metrics/calibration_histogram.py", "tensorflow_model_analysis/metrics/binary_confusion_matrices.py", "tensorflow_model_analysis/metrics/multi_class_confusion_matrix_metrics.py", "tensorflow_model_analysis/metrics/exact_match.py", "tensorflow_model_analysis/metrics/attributions.py"]}
{"id": "C16", "title": "Model comparison and error metrics do not depend on how the runner bundles the data", "statement": "Flip rates, symmetric prediction difference, model cosine similarity, mean regression errors and cross entropies computed from merged bundles equal the value computed from all examples in one bundle.", "quantifier": "every sequence of examples, every split into bundles, every merge tree, with accumulators handed over as a re-iterable collection", "why_tests_cant": "Needs all schedules; existing tests use a single accumulator or a runner that merges trivially.", "anchors": ["tensorflow_model_analysis/metrics/flip_metrics.py:_BooleanFlipCountsCombiner.merge_accumulators", "tensorflow_model_analysis/metrics/prediction_difference_metrics.py:_SymmetricPredictionDifferenceCombiner.merge_accumulators", "tensorflow_model_analysis/metrics/model_cosine_similarity.py:_ModelCosineSimilarityCombiner.merge_accumulators", "tensorflow_model_analysis/metrics/mean_regression_error.py:merge_accumulators", "tensorflow_model_analysis/metrics/cross_entropy_metrics.py:merge_accumulators"]}
{"id": "C17", "title": "Binary confusion matrices count every example exactly once per threshold", "statement": "For every threshold the four cells of the binary confusion matrix are the total weights of the examples that are (label above threshold / prediction above threshold) in the four combinations; the cells sum to the total weight, and as the threshold increases the predicted positives never increase (non-negative weights).", "quantifier": "every list of examples with weights, every list of distinct thresholds, every bundling", "why_tests_cant": "Conservation and monotonicity over all data sets and thresholds.", "anchors": ["tensorflow_model_analysis/contrib/aggregates/binary_confusion_matrices.py:BinaryConfusionMatricesCombiner"]}
{"id": "C18", "title": "Calibration histogram buckets place every prediction in the interval that contains it", "statement": "A prediction is assigned to the bucket whose half open interval contains it, predictions below the range go to the first and predictions at or above the upper end go to the last bucket, and the accumulated totals over all buckets equal the totals over all examples.", "quantifier": "every number of buckets, every range with left < right, every prediction and data set", "why_tests_cant": "Boundary arithmetic over all real predictions.", "anchors": ["tensorflow_model_analysis/metrics/calibration_histogram.py:_CalibrationHistogramCombiner"]}
{"id": "C19", "title": "Rebinning a histogram conserves totals and respects thresholds", "statement": "Rebinning a calibration histogram onto a list of ascending thresholds returns one bucket per threshold, each the sum of the source buckets falling in its interval (the first and last also absorbing what lies outside), so no weight is lost or duplicated.", "quantifier": "every ascending threshold list, every histogram sorted by bucket", "why_tests_cant": "Streaming merge of two sorted sequences of arbitrary length.", "anchors": ["tensorflow_model_analysis/metrics/calibration_histogram.py:rebin"]}
{"id": "C20", "title": "Confusion matrices derived from a histogram are consistent", "statement": "The confusion matrices derived from a calibration histogram have, at every threshold, true positives plus false negatives equal to the total positive weight and true negatives plus false positives equal to the total negative weight.", "quantifier": "every histogram and every threshold list accepted by the API", "why_tests_cant": "Prefix/suffix sums over arbitrary histograms and thresholds, including offsets at the ends.", "anchors": ["tensorflow_model_analysis/metrics/binary_confusion_matrices.py:_histogram_to_binary_confusion_matrices"]}
{"id": "C21", "title": "Arithmetic on threshold indexed matrices aligns equal thresholds", "statement": "Combining two confusion matrix sets element by element yields, for every threshold occurring in either operand, the operation applied to the two cells for that threshold (zero when the threshold is absent from one operand).", "quantifier": "every pair of matrix sets with strictly ascending thresholds", "why_tests_cant": "Depends on how two arbitrary threshold lists interleave.", "anchors": ["tensorflow_model_analysis/metrics/binary_confusion_matrices.py:Matrices._apply_binary_op_elementwise"]}
{"id": "C22", "title": "Multi-class confusion matrix entries do not depend on the order of the thresholds", "statement": "For every threshold the multi-class confusion matrix counts each example once, under its actual class and its top predicted class, or under 'no prediction' exactly when the top prediction does not exceed that threshold.", "quantifier": "every data set, every list of thresholds in any order", "why_tests_cant": "Interaction between loop iterations for different threshold orders.", "anchors": ["tensorflow_model_analysis/metrics/multi_class_confusion_matrix_metrics.py:_MultiClassConfusionMatrixCombiner.add_input"]}
{"id": "C23", "title": "Squared Pearson correlation lies between 0 and 1", "statement": "The reported squared correlation is NaN or a number between 0 and 1, and equals the square of weighted covariance over the product of weighted variances.", "quantifier": "every data set with non-negative weights", "why_tests_cant": "Inequality (Cauchy-Schwarz) over all data sets.", "anchors": ["tensorflow_model_analysis/metrics/squared_pearson_correlation.py:_SquaredPearsonCorrelationCombiner.extract_output"]}
{"id": "C24", "title": "NDCG is at most 1, at least 0, 1 for a perfect ranking, and averaged by weight", "statement": "NDCG@k of every query is the discounted gain of the predicted ranking divided by the best discounted gain any ranking of the same documents reaches; it never exceeds 1, for non-negative gains it is at least 0, and it equals 1 when the predicted order sorts the gains and some gain is positive. The reported value is the mean over queries weighted by example weight, queries without positive gain not counting.", "quantifier": "every query, every gains list, every k, every way of ordering tied predictions, every positive non-decreasing discount (the real log2 in particular), every bundling", "why_tests_cant": "Rearrangement over all permutations of all gain lists.", "anchors": ["tensorflow_model_analysis/metrics/ndcg.py:_NDCGCombiner"]}
{"id": "C25", "title": "Macro averaging is the weighted mean of the per-class values", "statement": "The macro average over sub keys of finite per-class values equals the class-weighted mean of these values (plain mean if the class weights are empty; a class that is not listed has weight 0), lies between the smallest and the largest per-class value for non-negative weights, and is NaN exactly when the total weight is zero. A NaN value of any class makes the average NaN. The same holds for averages over outputs.", "quantifier": "every list of sub keys, every metrics dictionary and every class weights dictionary", "why_tests_cant": "Weighted mean bounds for all sizes.", "anchors": ["tensorflow_model_analysis/metrics/aggregation.py:macro_average", "tensorflow_model_analysis/metrics/aggregation.py:output_average"]}
{"id": "C26", "title": "Weighted macro averaging uses the label frequencies and gives unlisted classes weight zero", "statement": "The weighted macro average weights each class by its share of the label weight; when class weights are also given, a class that is not listed has weight 0.0 as documented.", "quantifier": "every set of sub keys, values, label distributions and class weights", "why_tests_cant": "Over all combinations of listed and unlisted classes.", "anchors": ["tensorflow_model_analysis/metrics/aggregation.py:weighted_macro_average", "tensorflow_model_analysis/metrics/aggregation.py:_ClassWeightsFromLabelsCombiner"]}
{"id": "C27", "title": "Fractional labels preserve weight", "statement": "Splitting an example with a label between 0 and 1 into a negative and a positive example preserves the total weight and the weighted label and never yields a zero weight example; labels outside the interval by more than the tolerance 1e-7 are rejected (labels outside by less are split into a part of negative weight).", "quantifier": "every label, prediction and weight", "why_tests_cant": "Arithmetic identity for all reals.", "anchors": ["tensorflow_model_analysis/metrics/metric_util.py:_yield_fractional_labels"]}
{"id": "C28", "title": "One-hot encoding marks exactly the given class", "statement": "one_hot gives for each label a vector with a single one at the label's index, all zeros for -1, and rejects labels outside the range of the predictions.", "quantifier": "every list of labels and every number of classes", "why_tests_cant": "All class counts and labels including negative ones.", "anchors": ["tensorflow_model_analysis/metrics/metric_util.py:one_hot"]}
{"id": "C29", "title": "A metric computation requested twice is computed once, in order, without dropping any", "statement": "Filtering the requested computations keeps the first occurrence of every computation (identified by its equality), in the requested order within its kind, and every requested computation is represented; an object of no known kind raises.", "quantifier": "every list of computations of any kinds", "why_tests_cant": "List algorithm over arbitrary duplicates.", "anchors": ["tensorflow_model_analysis/evaluators/metrics_plots_and_validations_evaluator.py:_filter_and_separate_computations"]}
{"id": "C30", "title": "Different derived metrics are never merged", "statement": "Two derived metric computations that are treated as duplicates compute the same results.", "quantifier": "every pair of derived metric computations", "why_tests_cant": "Quantifies over arbitrary result functions.", "anchors": ["tensorflow_model_analysis/metrics/metric_types.py:DerivedMetricComputation"]}
{"id": "C31", "title": "Private metrics never reach the output", "statement": "Metrics whose name starts with a single underscore are removed before the result is emitted, every other metric is kept unchanged, and metrics, plots and attributions are separated without loss.", "quantifier": "every dictionary of computed metrics", "why_tests_cant": "All key sets and names.", "anchors": ["tensorflow_model_analysis/evaluators/metrics_plots_and_validations_evaluator.py:_remove_private_metrics", "tensorflow_model_analysis/evaluators/metrics_plots_and_validations_evaluator.py:_filter_by_key_type"]}
{"id": "C32", "title": "Diff metrics are candidate minus baseline", "statement": "For every public, non-diff metric of a model other than the baseline whose value can be subtracted and for which the baseline model has the same metric, exactly one diff metric is added whose value is the candidate value minus the baseline value; no other keys are added and every entry that is not such a diff metric is unchanged. Without a baseline model nothing is added.", "quantifier": "every metrics dictionary and every set of model names", "why_tests_cant": "All combinations of models and keys.", "anchors": ["tensorflow_model_analysis/evaluators/metrics_plots_and_validations_evaluator.py:_AddDerivedCrossSliceAndDiffMetrics"]}
{"id": "C33", "title": "Cross-slice metrics compare exactly the configured slice pairs", "statement": "For every cross-slicing spec, a cross-slice result exists exactly for each pair of a slice matching the baseline spec and a slice matching one of the comparison specs, and holds for every metric present in both slices the baseline value minus the comparison value (or the result of the metric's own comparison function); the ordinary slices are kept as they were.", "quantifier": "every set of slices with metrics, every list of cross slicing specs", "why_tests_cant": "All subsets of slices and specs.", "anchors": ["tensorflow_model_analysis/evaluators/metrics_plots_and_validations_evaluator.py:_AddCrossSliceMetrics"]}
{"id": "C34", "title": "Validation of a slice fails exactly when an applicable threshold is violated or its metric is missing", "statement": "The validation result for a slice is ok exactly when every threshold configured for a non-baseline model that applies to the slice has its metric present and the metric satisfies it.", "quantifier": "every set of metrics, thresholds, slice and cross-slice specs, every slice key", "why_tests_cant": "All combinations of applicable/not applicable specs and present/missing metrics.", "anchors": ["tensorflow_model_analysis/evaluators/metrics_validator.py:validate_metrics"]}
{"id": "C35", "title": "NaN and undefined ratios never pass validation", "statement": "A metric value of NaN fails every value threshold and every change threshold that sets an absolute or relative bound, and a relative change bound fails when the baseline value is zero.", "quantifier": "every threshold and metric value, finite, infinite or NaN", "why_tests_cant": "All float classes and thresholds.", "anchors": ["tensorflow_model_analysis/evaluators/metrics_validator.py:validate_metrics"]}
{"id": "C36", "title": "Threshold bounds are inclusive and one sided when only one is set", "statement": "For a non-NaN metric a value threshold passes exactly when lower <= metric <= upper with missing bounds treated as unbounded; a change threshold passes exactly when both the absolute and the relative change lie on the good side of their bound (inclusive) for the configured direction; an unknown direction with a bound fails.", "quantifier": "every metric, baseline and threshold", "why_tests_cant": "All reals and configurations.", "anchors": ["tensorflow_model_analysis/evaluators/metrics_validator.py:validate_metrics"]}
{"id": "C37", "title": "The combined verdict does not depend on the order in which slices are validated", "statement": "Combining per-slice validation results yields a verdict that is ok exactly when either no thresholds are configured and the run is rubber stamped, or thresholds are configured, at least one result exists, all results are ok and no configured slice is missing; verdict, reported failures and flags are the same for every order, bundling and merge tree.", "quantifier": "every multiset of per-slice results, every order and every merge tree", "why_tests_cant": "Schedules of the distributed combine are unbounded.", "anchors": ["tensorflow_model_analysis/writers/metrics_plots_and_validations_writer.py:CombineValidations", "tensorflow_model_analysis/evaluators/metrics_validator.py:merge_details"]}
{"id": "C38", "title": "The number of matching slices reported per slicing spec is exact", "statement": "In the combined validation details, the number reported for a slicing spec is the number of validated slices whose results mention that spec, for every merge order; cross-slicing specs are counted separately from ordinary specs.", "quantifier": "every sequence of per-slice results and every merge tree", "why_tests_cant": "Counting under arbitrary merge trees.", "anchors": ["tensorflow_model_analysis/evaluators/metrics_validator.py:merge_details"]}
{"id": "C39", "title": "A slice is reported missing exactly when no validated slice matched it", "statement": "A slicing or cross-slicing spec with configured thresholds for a non-baseline model is listed as missing exactly when no validation detail mentions it; each missing spec is listed once.", "quantifier": "every list of validation details and every configuration", "why_tests_cant": "All combinations of specs and details.", "anchors": ["tensorflow_model_analysis/evaluators/metrics_validator.py:get_missing_slices"]}
{"id": "C40", "title": "Jackknife confidence intervals use leave-one-out samples of all the data", "statement": "For a lawful combiner and any random assignment of examples to buckets, the unsampled value is the metric over all examples and the i-th jackknife sample is the metric over all examples not in bucket i; each slice gets an interval only if every bucket sample is present.", "quantifier": "every data set, every assignment of examples to buckets, every number of buckets", "why_tests_cant": "The assignment is random; all assignments must be covered.", "anchors": ["tensorflow_model_analysis/evaluators/jackknife.py", "tensorflow_model_analysis/evaluators/confidence_intervals_util.py:SampleCombineFn"]}
{"id": "C41", "title": "Jackknife mean and standard error formulas", "statement": "The interval of a metric is computed from the leave-one-out values as follows: the reported mean is their average, the standard error is sqrt((n-1)/n * sum of squared deviations), the degrees of freedom are n-1, and the value over all data is kept beside it; for a metric that is a plain mean over equal-size buckets the reported mean equals the full-data value. With a single sample both methods raise. The reported mean is not the bias corrected one (the average of the pseudo values n*full-(n-1)*leave-one-out). A bootstrap interval has the mean and the sample standard deviation of the samples.", "quantifier": "every number of buckets >= 2 and all sample values", "why_tests_cant": "Algebraic identity for all n and values.", "anchors": ["tensorflow_model_analysis/evaluators/jackknife.py:_JackknifeSampleCombineFn.extract_output", "tensorflow_model_analysis/evaluators/poisson_bootstrap.py:_BootstrapSampleCombineFn.extract_output", "tensorflow_model_analysis/evaluators/confidence_intervals_util.py:mean_and_std"]}
{"id": "C42", "title": "Sample bookkeeping is independent of arrival order", "statement": "If exactly one record of all the data arrives for a slice, confidence interval sample accumulation gives the same point estimates, sample counts and multiset of samples for every arrival order and merge tree; if fewer samples than expected arrive the result carries an error instead of an interval; a metric gets an interval exactly if as many of its samples as expected are numbers, and keeps its point estimate otherwise.", "quantifier": "every sequence of (sample id, metrics) records, every bundling", "why_tests_cant": "Schedules are unbounded.", "anchors": ["tensorflow_model_analysis/evaluators/confidence_intervals_util.py:SampleCombineFn"]}
{"id": "C43", "title": "Metric keys survive serialization", "statement": "Converting a metric key (with sub key and aggregation type) to its protobuf form and back yields the same key.", "quantifier": "every metric key", "why_tests_cant": "All combinations of optional fields.", "anchors": ["tensorflow_model_analysis/metrics/metric_types.py:MetricKey", "tensorflow_model_analysis/metrics/metric_types.py:SubKey", "tensorflow_model_analysis/metrics/metric_types.py:AggregationType"]}
{"id": "C44", "title": "Sorting metric keys gives one canonical order", "statement": "The order on metric keys used when sorting is a strict total order, so the same set of keys is always sorted to the same list.", "quantifier": "every set of metric keys", "why_tests_cant": "Totality over all pairs.", "anchors": ["tensorflow_model_analysis/metrics/metric_types.py:MetricKey.__lt__"]}
{"id": "C45", "title": "A configuration has unique model names and at most one baseline after verification", "statement": "verify_eval_config accepts a configuration only if no two model specs share a name and at most one is a baseline.", "quantifier": "every configuration", "why_tests_cant": "All lists of specs.", "anchors": ["tensorflow_model_analysis/utils/config_util.py:verify_eval_config"]}
{"id": "C46", "title": "Filling in configuration defaults is idempotent and leaves no dangling baseline thresholds", "statement": "update_eval_config_with_defaults applied twice equals applying it once; when the run has no baseline model no change thresholds and no baseline model specs remain; change thresholds without a baseline are rejected unless rubber stamped.", "quantifier": "every configuration and every combination of has_baseline / rubber_stamp", "why_tests_cant": "All configurations.", "anchors": ["tensorflow_model_analysis/utils/config_util.py:update_eval_config_with_defaults", "tensorflow_model_analysis/utils/config_util.py:has_change_threshold"]}
{"id": "C47", "title": "Bounding box matching is a one-to-one greedy matching above the threshold", "statement": "Matching predictions to ground truth boxes pairs each prediction with at most one ground truth and vice versa, and the two returned index arrays are inverse to each other. In order, each prediction gets the ground truth with the largest IoU among those not taken by an earlier prediction (the last one of equals) if this IoU reaches the threshold (capped just below one), and is left unmatched only if every such IoU is below it.", "quantifier": "every IoU matrix and threshold", "why_tests_cant": "Greedy algorithm over arbitrary matrices.", "anchors": ["tensorflow_model_analysis/metrics/preprocessors/utils/box_match.py:_match_boxes"]}
{"id": "C48", "title": "Intersection over union is a symmetric number between 0 and 1", "statement": "For valid boxes the pairwise IoU is between 0 and 1 and symmetric; it is 0 exactly when the boxes have no common inner point and, for a box of positive area, 1 exactly when they are equal. A table is returned for all pairs unless a box has its borders in the wrong order, which raises ValueError.", "quantifier": "every pair of lists of boxes", "why_tests_cant": "All coordinates.", "anchors": ["tensorflow_model_analysis/metrics/preprocessors/utils/box_match.py:compute_ious_for_image", "tensorflow_model_analysis/metrics/preprocessors/utils/bounding_box.py:bounding_box_area"]}
{"id": "C49", "title": "Combining evaluation dictionaries never loses or overwrites an output", "statement": "Combining the outputs of several evaluators yields the disjoint union of their dictionaries in every order, and raises an error if two evaluators write the same key.", "quantifier": "every list of output dictionaries, every merge order", "why_tests_cant": "All dictionaries and orders.", "anchors": ["tensorflow_model_analysis/evaluators/evaluator.py:_CombineEvaluationDictionariesFn"]}
{"id": "C50", "title": "Loading results filtered by slice returns exactly the requested slices", "statement": "Loading metrics with a slice spec filter returns exactly the stored records whose slice key matches one of the specs.", "quantifier": "every stored list of records, ordinary and cross-slice, every list of specs", "why_tests_cant": "All record kinds and specs.", "anchors": ["tensorflow_model_analysis/writers/metrics_plots_and_validations_writer.py:load_and_deserialize_metrics", "tensorflow_model_analysis/slicer/slicer_lib.py:slice_key_matches_slice_specs"]}
{"id": "C51", "title": "Exact match counts exactly the examples whose prediction equals the label", "statement": "The exact match metric is the weighted share of examples for which the list of predicted values equals the list of label values.", "quantifier": "every sequence of examples with labels and predictions of any length and any weights, every bundling", "why_tests_cant": "All label and prediction lengths; tests use equal lengths.", "anchors": ["tensorflow_model_analysis/metrics/exact_match.py:_ExactMatchCombiner"]}
{"id": "C52", "title": "Mean label and mean prediction are the weighted means of labels and predictions", "statement": "For examples with one label and one prediction, mean_label and mean_prediction are the weighted averages of the labels and predictions over the examples, and calibration is their quotient; examples without label do not distort the mean prediction.", "quantifier": "every sequence of examples with any weights, labelled or not, every bundling", "why_tests_cant": "All weightings and mixtures of labelled and unlabelled examples.", "anchors": ["tensorflow_model_analysis/metrics/calibration.py:_WeightedLabelsPredictionsExamplesCombiner.add_input"]}
{"id": "C53", "title": "Sampled example ids belong to the cell they are listed under", "statement": "When binary confusion matrices are asked to sample example ids, every id listed under a cell (tp, tn, fp, fn) of a threshold comes from an example counted in that cell, no more than the configured number is listed, and fewer are listed only if all ids of that cell are listed.", "quantifier": "every data set, every threshold list, every limit, every bundling and merge tree", "why_tests_cant": "The sampling interacts with merging partial accumulators of arbitrary sizes; tests merge only a couple of hand made accumulators.", "anchors": ["tensorflow_model_analysis/contrib/aggregates/binary_confusion_matrices.py:BinaryConfusionMatricesCombiner"]}
{"id": "C54", "title": "Histogram based confusion matrices agree with exact counting", "statement": "The binary confusion matrices derived from the calibration histogram equal the matrices obtained by counting every example exactly, with an example predicted positive when its prediction exceeds the threshold; predictions are only distinguished up to the resolution of the histogram.", "quantifier": "every data set with predictions in [0, 1], every ascending threshold list, including a single negative threshold", "why_tests_cant": "The result depends on the interplay of bucket boundaries, epsilon corrections and added fence posts for arbitrary thresholds and predictions; tests fix a few values.", "anchors": ["tensorflow_model_analysis/metrics/binary_confusion_matrices.py:binary_confusion_matrices", "tensorflow_model_analysis/metrics/binary_confusion_matrices.py:_histogram_to_binary_confusion_matrices", "tensorflow_model_analysis/metrics/calibration_histogram.py:rebin"]}
{"id": "C55", "title": "Flattening pairs every class score with the label of its class", "statement": "Flattening predictions of n classes gives one binary example per (row, class): the label is 1 exactly for the row's class, the prediction is that class's score and the weight is the example's weight; sparse labels (class ids) and dense labels (one-hot vectors) of the same data give the same examples.", "quantifier": "every batch shape, every number of classes, every label, score and weight", "why_tests_cant": "Alignment of labels, scores and weights after reshaping must hold for all shapes.", "anchors": ["tensorflow_model_analysis/metrics/metric_util.py:to_label_prediction_example_weight", "tensorflow_model_analysis/metrics/metric_util.py:one_hot"]}
{"id": "C56", "title": "class_id binarization is one-vs-rest", "statement": "With the sub key class_id = i every row gives exactly one binary example with the score of class i, labelled 1 exactly if the row's class is i (sparse labels) or with the row's i-th label (dense labels); class ids outside the range of classes are errors; the examples of all class ids together are the examples of flattening.", "quantifier": "every batch shape, number of classes, class id, labels, scores and weight", "why_tests_cant": "Decomposition into all classes for all shapes.", "anchors": ["tensorflow_model_analysis/metrics/metric_util.py:select_class_id", "tensorflow_model_analysis/metrics/metric_util.py:to_label_prediction_example_weight"]}
{"id": "C57", "title": "Sub key k selects the k-th largest prediction", "statement": "With the sub key k every row gives one binary example made of a k-th largest prediction of the row and its label (1 exactly if it is the prediction of the row's class for sparse labels); the selected value does not depend on how the partition of the row breaks ties; more than the number of classes is an error.", "quantifier": "every batch, number of classes n, every 1 <= k <= n, every allowed outcome of the partial sort", "why_tests_cant": "np.argpartition leaves the order open; all its outcomes must be covered.", "anchors": ["tensorflow_model_analysis/metrics/metric_util.py:top_k_indices", "tensorflow_model_analysis/metrics/metric_util.py:select_indices", "tensorflow_model_analysis/metrics/metric_util.py:to_label_prediction_example_weight"]}
{"id": "C58", "title": "top_k keeps exactly the k largest predictions", "statement": "With the sub key top_k = k binarization keeps all classes with -inf in place of all but the k largest predictions of each row, aggregation keeps only the labels and predictions of the k largest; with k equal to the number of classes binarization changes nothing.", "quantifier": "every batch, number of classes n, every 1 <= k <= n, every allowed outcome of the partial sort", "why_tests_cant": "All shapes and all tie breaking orders.", "anchors": ["tensorflow_model_analysis/metrics/metric_util.py:top_k_indices", "tensorflow_model_analysis/metrics/metric_util.py:select_indices", "tensorflow_model_analysis/metrics/metric_util.py:to_label_prediction_example_weight"]}
{"id": "C59", "title": "Class weights apply to the class they are configured for", "statement": "With class weights the binary example of class i has the example's weight times the weight of class i, 0.0 if class i is not listed, for every example of a batch; class weights without flattening are an error.", "quantifier": "every class weight dictionary, number of classes, label, score and weight", "why_tests_cant": "Index arithmetic for all shapes; fails for batches.", "anchors": ["tensorflow_model_analysis/metrics/metric_util.py:to_label_prediction_example_weight"]}
{"id": "C60", "title": "Flattening drops and repeats nothing", "statement": "Whenever flattening succeeds (without sub key and class weights) the predictions of the yielded tuples in order are the given predictions, the labels are the given labels (if there are as many as predictions, or no predictions), and the weights are the given weights with a single weight repeated for every value; in particular nothing is truncated by zipping sequences of different lengths.", "quantifier": "every label, prediction and weight array, with or without squeezing", "why_tests_cant": "Truncation by zip shows only for particular mismatched lengths.", "anchors": ["tensorflow_model_analysis/metrics/metric_util.py:to_label_prediction_example_weight"]}
{"id": "C61", "title": "A metric of one model or output sees only that model's or output's values", "statement": "The tuples given to a metric for one model (or output) depend only on the labels, predictions and weights stored under that model's (output's) name: changing entries of other models has no effect, and a model without predictions is an error.", "quantifier": "every pair of inputs that agree on the model's entries", "why_tests_cant": "Non-interference quantifies over all other entries.", "anchors": ["tensorflow_model_analysis/metrics/metric_util.py:to_label_prediction_example_weight", "tensorflow_model_analysis/metrics/metric_util.py:optionally_get_by_keys", "tensorflow_model_analysis/utils/util.py:get_by_keys"]}
{"id": "C62", "title": "The failures listed for a slice are exactly the violated thresholds, each once", "statement": "Every failure listed by the validation of a slice belongs to a threshold configured for a non-baseline model whose metric is missing or does not satisfy it, with the value of the metric attached; every violated threshold that concerns the slice is listed, thresholds with equal settings for the same metric once; and every spec whose threshold concerns the slice is mentioned in the validation details.", "quantifier": "every set of metrics, thresholds, specs and slice key", "why_tests_cant": "All combinations of metrics, duplicate thresholds and specs.", "anchors": ["tensorflow_model_analysis/evaluators/metrics_validator.py:validate_metrics"]}
{"id": "C63", "title": "A bootstrap sample is the metric over the data repeated as drawn", "statement": "For all random draws and every bundling, the value of a slice in a Poisson bootstrap sample is what the combiner gives for the elements of the slice, each repeated as often as was drawn for it; a slice of the data is in every sample, also if nothing was drawn for it.", "quantifier": "every combiner, every data set, every draw, every bundling", "why_tests_cant": "The draws are random and the schedules unbounded.", "anchors": ["tensorflow_model_analysis/evaluators/poisson_bootstrap.py:_BootstrapCombineFn"]}
{"id": "C64", "title": "Metrics computed together equal metrics computed alone", "statement": "The evaluator computes all metrics of a slice in one tuple combiner: every example carries per-computation inputs (or None for the shared default inputs). For every way the runner bundles, extends and merges accumulators the result is the dictionary union, in order of the computations, of what each metric gives when it is computed alone on its own inputs under the same bundling; the whole succeeds exactly if each one alone succeeds, and a failure while adding an input surfaces as RuntimeError.", "quantifier": "every list of computations, every prepared example list, every execution schedule (tree of bundles and merges)", "why_tests_cant": "Ranges over all combinations of metrics and all runner schedules.", "anchors": ["tensorflow_model_analysis/evaluators/metrics_plots_and_validations_evaluator.py:_ComputationsCombineFn", "tensorflow_model_analysis/evaluators/metrics_plots_and_validations_evaluator.py:_PreprocessorDoFn", "tensorflow_model_analysis/utils/beam_util.py"]}
{"id": "C65", "title": "After defaults are filled in, metrics specs only name existing models", "statement": "In a configuration returned by update_eval_config_with_defaults every metrics spec names at least one model, a metrics spec that named none gets all of them, with a single model all names are empty, and every model named by a metrics spec is one of the model specs provided this held before.", "quantifier": "every configuration and every combination of arguments", "why_tests_cant": "All configurations and flag combinations.", "anchors": ["tensorflow_model_analysis/utils/config_util.py:update_eval_config_with_defaults"]}
{"id": "C66", "title": "The list of models is normalised consistently", "statement": "verify_and_update_eval_shared_models keeps the models in order, gives each one its own name or the key it was passed under, requires names when there are several, drops the name of a single one and is idempotent; a run counts as rubber stamped exactly when all its candidates are, and a lone baseline is rejected.", "quantifier": "every model, list or dictionary of models", "why_tests_cant": "All collections of models.", "anchors": ["tensorflow_model_analysis/utils/model_util.py:verify_and_update_eval_shared_models", "tensorflow_model_analysis/utils/model_util.py:has_rubber_stamp"]}
{"id": "C67", "title": "Object detection pairs account for every ground truth and every kept detection once", "statement": "boxes_to_label_prediction_example_weight keeps the detections of the class with the highest confidences up to the limit and the ground truths of the class inside the area range; each kept ground truth gives exactly one pair with label 1 and the confidence of the detection matched to it or 0, and each unmatched kept detection inside the area range gives exactly one pair with label 0 and its confidence, so thresholded true positives, false negatives and false positives are the matching's counts.", "quantifier": "every list of boxes, classes, confidences, thresholds and area ranges", "why_tests_cant": "Number of boxes, overlaps and ties are unbounded.", "anchors": ["tensorflow_model_analysis/metrics/preprocessors/utils/box_match.py:boxes_to_label_prediction_example_weight"]}
{"id": "C68", "title": "Set matching yields one weighted pair per class", "statement": "The set match preprocessor yields, for every class that is a label or one of the first top_k predicted classes, exactly one input: label 1 if the class is a label and 0 otherwise, its score or minus infinity if it is not predicted as prediction, and the example weight times the class weight as weight.", "quantifier": "every list of labels, predicted classes, scores and class weights, every example weight and top_k", "why_tests_cant": "Sets of labels and predictions of any size with duplicates and missing classes.", "anchors": ["tensorflow_model_analysis/metrics/preprocessors/set_match_preprocessors.py:SetMatchPreprocessor"]}
{"id": "C69", "title": "Padding rows of detections are cut off", "statement": "With a num_detections key exactly the first num_detections rows of the stacked predictions are kept.", "quantifier": "every list of rows and every number of detections", "why_tests_cant": "Any amount of padding, including none and all.", "anchors": ["tensorflow_model_analysis/metrics/preprocessors/utils/object_detection_format.py:truncate_by_num_detections"]}
{"id": "C70", "title": "The metrics of a slice are the metrics of exactly its examples", "statement": "End to end: preprocess every example, fan it out to its slices and combine per slice. A slice key is reported exactly if some example belongs to it, at most once, and the reported metrics equal each metric evaluated over exactly the examples that belong to the slice, whatever the runner's bundling, for all metrics that do not depend on bundling.", "quantifier": "every data set, every slicing configuration, every list of computations, every runner schedule", "why_tests_cant": "Quantifies over data sets, slice specs and all runner executions.", "anchors": ["tensorflow_model_analysis/evaluators/metrics_plots_and_validations_evaluator.py:_ComputeMetricsAndPlots", "tensorflow_model_analysis/slicer/slicer_lib.py:_FanoutSlicesDoFn"]}
{"id": "C71", "title": "get_by_keys finds nested and slash-prefixed names and nothing else", "statement": "get_by_keys ignores None keys; for keys k1..kn it returns the value stored under nested keys or under a single name k1/k2/.../kn (nested names and shorter names take precedence); asking for a name that only occurs as a prefix returns a new dictionary holding exactly the prefixed entries without the prefix; if nothing matches it returns the default, else None if optional, else raises ValueError; going below a non-dictionary always raises ValueError.", "quantifier": "every nested dictionary, every list of keys with or without None entries, every default/optional combination", "why_tests_cant": "Holds over all nested shapes, names containing slashes and key lists.", "anchors": ["tensorflow_model_analysis/utils/util.py:get_by_keys"]}
{"id": "C72", "title": "Merging extracts keeps every row at its own place", "statement": "merge_extracts applied to a list of individual extracts gives one batched extract that has exactly the keys occurring in some extract; at each key the batch holds, in the order of the list, the value of each extract, an extract without the key counting as an empty row: rows of equal length become one array, rows of different length a variable length tensor from which exactly these rows are read back, and the value is None only if it is None in every extract.", "quantifier": "every list of extracts of any length whose keys fit together, every nesting, every mix of missing keys and row lengths", "why_tests_cant": "Holds over all list lengths, all patterns of missing keys and all row lengths.", "anchors": ["tensorflow_model_analysis/utils/util.py:merge_extracts", "tensorflow_model_analysis/api/types.py:VarLenTensorValue"]}
{"id": "C73", "title": "The weighted example count adds up exactly the weights of its own model and output", "statement": "However the runner partitions and merges the data, the example count of a model and output is the sum over the examples of the weight array of that model and output (selected by model name and then by output name from nested dicts, or used directly if the weights are not a dict); an example without weights or with weights for other outputs only counts 1, weights of other models or outputs never contribute, and if after the selection the weights are still a dict (no output name given) a ValueError is raised instead of a count.", "quantifier": "all weight structures, model and output names, numbers of examples, partitions and merge trees", "why_tests_cant": "tests use a handful of weight dictionaries with one partition; the claim is over every nesting of weights and every execution", "anchors": ["tensorflow_model_analysis/metrics/example_count.py:_ExampleCountCombiner", "tensorflow_model_analysis/utils/util.py:get_by_keys"]}
{"id": "C74", "title": "Pointwise comparison and error measures have the documented values and range", "statement": "The symmetric prediction difference of two predictions is twice their distance over the size of their sum, does not depend on which of them is the baseline, lies between 0 and 2 for predictions of one sign, is 0 exactly for predictions that agree up to the tolerance and is infinite for opposite predictions. The absolute, squared and percentage errors are the distance, its square and the distance in percent of the label (undefined exactly for label 0), and a mean of such errors with weights that are not negative is never negative, however the data is partitioned and merged.", "quantifier": "all rational predictions, labels and weights; all partitions and merge trees", "why_tests_cant": "the formulas are over all numbers, including the zero, tiny and opposite cases a few sample points miss", "anchors": ["tensorflow_model_analysis/metrics/prediction_difference_metrics.py:symmetric_prediction_difference_computations", "tensorflow_model_analysis/metrics/mean_regression_error.py:_MeanRegressionErrorCombiner"]}
{"id": "C75", "title": "Rates of a confusion matrix are weighted relative frequencies", "statement": "For every list of weighted rows and every threshold, BinaryAccuracy, Precision, Recall, Specificity, FallOut, MissRate, NPV, FalseDiscoveryRate, FalseOmissionRate, Prevalence, ThreatScore and PredictedPositiveRate computed from the confusion matrix are the weighted relative frequencies they are named after; each is NaN exactly when the rows it refers to have no weight, lies in [0, 1] otherwise, and complementary rates add up to 1. Over every bundling and merge tree of the data the reported values are those of the matrix of all rows.", "quantifier": "for all lists of rows with rational weights, all thresholds including infinities and NaN predictions, fractional labels on or off, all executions of the combiner", "why_tests_cant": "Unit tests compute each rate for a handful of matrices; a swapped cell that coincides on symmetric data, or an undefined case returning 0 instead of NaN, passes them.", "anchors": ["tensorflow_model_analysis/metrics/confusion_matrix_metrics.py:1270-2540", "tensorflow_model_analysis/metrics/binary_confusion_matrices.py:589-695"]}
{"id": "C76", "title": "Composite scores of a confusion matrix satisfy their defining equations", "statement": "For every matrix of non-negative cells F1 is the harmonic mean of precision and recall (when both are defined and not both 0) and lies in [0, 1]; BalancedAccuracy, Informedness and Markedness are the means and sums of the rates they are defined by; the likelihood ratios and the diagnostic odds ratio are quotients of rates; the Matthews correlation coefficient squared times the product of the four margins equals the squared determinant and it lies in [-1, 1]; Fowlkes-Mallows is the geometric mean of precision and recall; PrevalenceThreshold is defined whenever its inputs are.", "quantifier": "for all confusion matrices with non-negative rational cells", "why_tests_cant": "Tests check single matrices; the failing combinations (true positive rate equal to false positive rate) and range violations need all matrices.", "anchors": ["tensorflow_model_analysis/metrics/confusion_matrix_metrics.py:1270-2540"]}
{"id": "C77", "title": "Metrics at a fixed rate report the best feasible value", "statement": "SensitivityAtSpecificity, SpecificityAtSensitivity, PrecisionAtRecall, RecallAtPrecision, RecallAtFalsePositiveRate and ThresholdAtRecall report, over the thresholds whose constrained rate meets the given bound (boundary included, undefined rates never meeting it), the largest defined value of the other rate or threshold: the value is attained at a feasible threshold and no feasible threshold has a larger one. It is 0 if no threshold is feasible and NaN if the other rate is undefined at all feasible ones.", "quantifier": "for all lists of thresholds and matrices with non-negative cells and all bounds including NaN and infinities", "why_tests_cant": "Tests use a few thresholds; ties, undefined rates at single thresholds and bounds met exactly occur only for particular data.", "anchors": ["tensorflow_model_analysis/metrics/confusion_matrix_metrics.py:170-195", "tensorflow_model_analysis/metrics/confusion_matrix_metrics.py:700-1070", "tensorflow_model_analysis/metrics/confusion_matrix_metrics.py:2950-3000"]}
{"id": "C78", "title": "The area under the ROC curve is a rank statistic", "statement": "For ascending thresholds and data with weight in both classes AUC(curve='ROC') equals the weight of the pairs of a negative and a positive example that some threshold separates in the right order, plus 1/2 ('interpolation'), 0 ('minoring') or 1 ('majoring') times the weight of the pairs separated by no threshold, relative to the weight of all pairs. Hence it lies in [0, 1]; when the thresholds reach below and above all predictions minoring and majoring bound the area under the exact curve and interpolation lies between them; it equals the exact area when a threshold lies between any two different predictions; it is 1 for a perfect ranking and 0 when one class has no weight. The same holds for the default path through the calibration histogram with predictions rounded down to its grid, and over every execution of the combiner.", "quantifier": "for all ascending threshold lists of any length, all lists of rows with non-negative weights, all three summation methods, all executions of the combiner", "why_tests_cant": "Tests compare the area for one small data set; that the Riemann sum is the pair statistic for every data set, and that minoring and majoring really are bounds, needs a proof over all data.", "anchors": ["tensorflow_model_analysis/metrics/confusion_matrix_metrics.py:460-615", "tensorflow_model_analysis/metrics/binary_confusion_matrices.py:200-345"]}
{"id": "C79", "title": "Which label, prediction and weight a metric sees", "statement": "A metric that is not example weighted sees exactly what a weighted one sees when every example has weight 1; missing weights count as 1. A metric that needs a single weight per example raises ValueError if the weights of the example differ and otherwise sees their common value. A missing label or prediction raises ValueError unless the metric allows it. With one model spec its label key and prediction key are used whatever the model's name; with several specs of different names a metric of a model uses the keys of that model's spec and the predictions under that model's name.", "quantifier": "for all arguments, labels, predictions and weights of any shape and nesting", "why_tests_cant": "Unit tests fix one key layout at a time; the combinations of models, outputs, weights and missing values are unbounded.", "anchors": ["tensorflow_model_analysis/metrics/metric_util.py:431-794"]}
{"id": "C80", "title": "Sub keys and aggregations of a metrics spec", "statement": "The (aggregation type, sub key) pairs a metrics spec expands to are exactly those asked for: one without aggregation per class id, k and top_k of the binarization options, one per top_k of the aggregation options (or one without sub key) with the aggregation type given, and a single plain one if neither is given. Non-positive ks raise ValueError. Negated: aggregation options without a type replace the binarization.", "quantifier": "for all metrics specs, with option lists of any length", "why_tests_cant": "Tests check a few option combinations; completeness and absence of extra keys for all lists needs induction.", "anchors": ["tensorflow_model_analysis/metrics/metric_specs.py:1108-1189"]}
{"id": "C81", "title": "Weighted variants and thresholds of metrics specs", "statement": "A metric is computed weighted, unweighted or both as the spec says; by default it is weighted exactly if a model of the spec has an example weight. The thresholds checked are exactly those configured: a value threshold under every key of its metric (each model, output, sub key, aggregation, variant), a change threshold under the same keys as differences to the baseline, each once, by slice; nothing else.", "quantifier": "for all lists of metrics specs, models and thresholds", "why_tests_cant": "Tests fix one spec; soundness and completeness over arbitrary lists of specs, with repeated metrics and thresholds, cannot be enumerated.", "anchors": ["tensorflow_model_analysis/metrics/metric_specs.py:113-161", "tensorflow_model_analysis/metrics/metric_specs.py:571-732"]}
{"id": "C82", "title": "What is validated is computed", "statement": "For every metric, model, output, sub key, aggregation and weighted variant of a metrics spec, to_computations yields a computation whose result is found under the key under which the thresholds of the metric are checked. Negated for weighted macro averages: these are computed under the key of a macro average, and no computation yields the key that is checked.", "quantifier": "for all lists of metrics specs whose metrics yield the key they are created for", "why_tests_cant": "Tests of thresholds and of computations are separate and use separate configurations; the agreement of the two expansions for all specs is a relation between two functions.", "anchors": ["tensorflow_model_analysis/metrics/metric_specs.py:571-732", "tensorflow_model_analysis/metrics/metric_specs.py:733-1105", "tensorflow_model_analysis/metrics/aggregation.py:194-201"]}
{"id": "C83", "title": "Macro averages find their inputs", "statement": "Every macro average and weighted macro average that to_computations sets up finds a value for each of its classes (or ranks), under the metric's name if the class is asked for itself and under the private name otherwise, and does not raise; the label weights of exactly its classes are requested with a weighted average.", "quantifier": "for all lists of metrics specs, all combinations of binarization and aggregation, all values", "why_tests_cant": "The classes are split between public and private computations depending on other options of the spec and of other specs; tests exercise a few splits.", "anchors": ["tensorflow_model_analysis/metrics/metric_specs.py:835-905", "tensorflow_model_analysis/metrics/metric_specs.py:1025-1105", "tensorflow_model_analysis/metrics/aggregation.py:77-264"]}
{"id": "C84", "title": "Averages over outputs find their inputs", "statement": "An average over outputs finds the values of all outputs with a weight and does not raise if the spec has no aggregation options. Negated for micro averaging: the average then never succeeds, as the values are stored with the aggregation type in the key and looked up without.", "quantifier": "for all lists of metrics specs, output weights and values", "why_tests_cant": "The failure needs the combination of two options that are tested separately; its absence otherwise needs all specs.", "anchors": ["tensorflow_model_analysis/metrics/metric_specs.py:835-905", "tensorflow_model_analysis/metrics/aggregation.py:25-75"]}
{"id": "C85", "title": "Several averages in one configuration", "statement": "Averages with different keys are all computed. Negated for averages with the same key: of two macro averages of a metric over different classes or weights, and of its macro and weighted macro average, only one is computed; of the label weights of two sets of classes only one is computed, and a weighted macro average given the label weights of other classes is the plain mean, or NaN if class weights are given.", "quantifier": "for all lists of computations, class sets, weights and values", "why_tests_cant": "Tests evaluate one aggregation per configuration.", "anchors": ["tensorflow_model_analysis/metrics/aggregation.py:157-316", "tensorflow_model_analysis/metrics/metric_types.py:572-580", "tensorflow_model_analysis/evaluators/metrics_plots_and_validations_evaluator.py:160-198"]}
{"id": "C86", "title": "Labels given as texts or sparse tensors", "statement": "With a vocabulary in the predictions, text labels of any shape become the first positions of the texts in it, -1 for unknown texts, and zeros in the shape of the predictions if all are unknown; numbers are unaffected. A sparse label becomes a dense one with its values at its indices and zeros elsewhere; an index out of range raises IndexError. A sparse label of known texts marks exactly their classes. Negated: a sparse label with an unknown text marks the last class; with two dimensional predictions a sparse label sets whole rows. The predictions are those under the prediction key, or else the first of the common keys.", "quantifier": "for all vocabularies, label arrays, sparse values and indices, prediction shapes and dictionaries", "why_tests_cant": "Tests use a few vocabularies whose texts are all known and one dimensional predictions.", "anchors": ["tensorflow_model_analysis/metrics/metric_util.py:840-1000"]}
{"id": "C87", "title": "The area under the precision recall curve", "statement": "For examples with non-negative weights, some of them positive, and ascending thresholds, the area by interpolation is the area under the curve of precision over recall that results from moving evenly from each confusion matrix to the next; it is between 0 and 1, at least the value of minoring, and the difference of the recalls if no step with false positives changes the recall. Without positive examples all methods return 0. Majoring is an upper bound if something is predicted positive at all thresholds. Negated otherwise: thresholds above all predictions add nothing to minoring and majoring, and majoring is 0 for a perfect classifier for which interpolation gives 1.", "quantifier": "for all lists of examples and ascending thresholds", "why_tests_cant": "Tests compare single values for a handful of examples; the claim relates sums of logarithms to integrals for all curves.", "anchors": ["tensorflow_model_analysis/metrics/confusion_matrix_metrics.py:556-612"]}
{"id": "C88", "title": "Thresholds and sub keys of confusion matrix metrics", "statement": "A metric configured with a list of thresholds or a single float is computed at exactly these; with a number of thresholds n >= 2 at n evenly spaced thresholds of which the first lies below and the last above all predictions from 0 to 1; with neither at -inf for a top k setting, else at its default, else at 10000 interpolated thresholds. Fewer than two and setting both are rejected. Settings of the metric and of the specification combine into one sub key and a setting made twice is rejected. Negated in part: 198 or 9998 thresholds given together with the number 200 or 10000 are silently dropped, an integer threshold raises a type error, and the combined sub key is not validated.", "quantifier": "for all thresholds, numbers, sub keys and settings", "why_tests_cant": "Tests fix a few numbers of thresholds; ascending order, coverage and precedence hold for every number and combination only by proof.", "anchors": ["tensorflow_model_analysis/metrics/binary_confusion_matrices.py:_interpolated_thresholds", "tensorflow_model_analysis/metrics/binary_confusion_matrices.py:binary_confusion_matrices", "tensorflow_model_analysis/metrics/confusion_matrix_metrics.py:_validate_and_update_sub_key", "tensorflow_model_analysis/metrics/confusion_matrix_metrics.py:ConfusionMatrixMetricBase._metric_computations"]}
{"id": "C89", "title": "Sharing confusion matrices between metrics does not change what they count", "statement": "Metrics whose confusion matrices have the same key share one computation, which is the one each of them would have used alone. False of the code if the metrics differ in their aggregation type: the key of the matrices does not contain it, so that of a binarised and a micro averaged metric at the same top k one is computed from the counts of the other.", "quantifier": "for all pairs of requests, whatever else is configured", "why_tests_cant": "Tests configure one kind of averaging at a time; the collision depends on combinations of specifications.", "anchors": ["tensorflow_model_analysis/metrics/binary_confusion_matrices.py:binary_confusion_matrices", "tensorflow_model_analysis/metrics/calibration_histogram.py:calibration_histogram", "tensorflow_model_analysis/evaluators/metrics_plots_and_validations_evaluator.py:_filter_and_separate_computations"]}
{"id": "C90", "title": "Feature samplers yield the features of misclassified examples", "statement": "A false positive or false negative feature sampler yields the feature values of the first examples in its cell of the confusion matrix, at most as many as asked for. False of the code in two ways: a slice without such an example makes the evaluation fail, and of all samplers of a configuration only one is computed, since their computations have no keys.", "quantifier": "for all data sets, thresholds, sample sizes, schedules and configurations", "why_tests_cant": "Tests configure one sampler on data with misclassified examples; deduplication and empty cells only show for other configurations and slices.", "anchors": ["tensorflow_model_analysis/metrics/confusion_matrix_metrics.py:ConfusionMatrixFeatureSamplerBase._metric_computations", "tensorflow_model_analysis/metrics/confusion_matrix_metrics.py:FalsePositiveFeatureSampler._get_samples", "tensorflow_model_analysis/metrics/metric_types.py:DerivedMetricComputation._computation_id"]}
{"id": "C91", "title": "Comparing slices and comparing models commute", "statement": "In the results of an evaluation with a baseline model and cross slice comparisons, a public metric of a pair of slices is its value in the first slice minus its value in the second, and the pair's difference to the baseline model is the difference of the two slices' own differences to the baseline model; all of these are present whenever the candidate's and the baseline's metric are present in both slices.", "quantifier": "for all evaluation results, derived metrics, cross slice specs, pairs of slices and metrics with numeric values", "why_tests_cant": "The result crosses three stages (derived metrics, cross slice metrics, model differences) whose order matters; tests check each stage on one example.", "anchors": ["tensorflow_model_analysis/evaluators/metrics_plots_and_validations_evaluator.py:_AddDerivedCrossSliceAndDiffMetrics", "tensorflow_model_analysis/evaluators/metrics_plots_and_validations_evaluator.py:_AddCrossSliceMetrics"]}
{"id": "C92", "title": "Keras metrics do not depend on batches and bundles", "statement": "The value reported for a Keras metric by the combiner is the value of the metric over all the rows of its output, whatever the batch size, the sizes in bytes reported by the estimator, the bundles, merges and compactions, if the metric adds up contributions of single rows, and either all rows of an output have the same width or padding does not change the contribution of a row. A loss with equal example weights is such a metric. It fails for losses with unequal weights, for metrics that padding changes, and for rows of different widths without padding.", "quantifier": "for all metrics, outputs, data, batch sizes, padding options, byte sizes and executions of the combiner (bundles, merges, compactions)", "why_tests_cant": "When a batch is flushed depends on counts, byte sizes and the runner; tests use two examples and one or two batch sizes.", "anchors": ["tensorflow_model_analysis/metrics/tf_metric_wrapper.py:_CompilableMetricsCombiner", "tensorflow_model_analysis/metrics/tf_metric_accumulators.py:TFCompilableMetricsAccumulator"]}
{"id": "C93", "title": "Which Keras metrics are computed, on which inputs, under which keys", "statement": "A Keras metric is evaluated for an output exactly if no later metric of the output has the same name and sub key; it is evaluated by exactly one computation, that of its sub key, where its own class id or top_k decides the sub key and a contradiction with the configured one raises ValueError (as does aggregating a sparse metric) and nothing else does. Its computation declares its key; without aggregation everything reported has been declared and the value under the key is that of the metric. With aggregation nothing that is reported has been declared. A metric that does not select the top k itself is given inputs restricted to its sub key; the inputs of a loss depend on the other metrics.", "quantifier": "for all requests (model name, sub key, aggregation type), metrics by output, padding and accumulators", "why_tests_cant": "Tests use a handful of lists of metrics; grouping, duplicates and clashes depend on the combination of all the metrics of a model.", "anchors": ["tensorflow_model_analysis/metrics/tf_metric_wrapper.py:tf_metric_computations", "tensorflow_model_analysis/metrics/tf_metric_wrapper.py:_filter_duplicate_metrics", "tensorflow_model_analysis/metrics/tf_metric_wrapper.py:_verify_and_update_sub_key", "tensorflow_model_analysis/metrics/tf_metric_wrapper.py:_metric_keys_and_configs"]}
{"id": "C94", "title": "What a loaded result shows for a slice", "statement": "For a loaded result, the metrics returned for a slice, an output and a sub key are those of the first stored record of that slice that has a model to choose: under every displayed name exactly the last metric stored for the chosen model (or for no model) with that output, sub key and name, with its confidence bounds. None is returned exactly if there is no such record, KeyError is raised exactly if the record has no metric there. The same holds for attributions. A stored metric is therefore available if no other metric of its model shares its output, sub key and displayed name; it fails for the weighted and unweighted variants of a metric, for diffs of different averages, for class id 0 of attributions, and for slices that only hold an error.", "quantifier": "for all lists of stored records (keys, values, models, legacy entries), model names, slices, outputs and sub keys", "why_tests_cant": "Which metric is visible depends on all the keys stored for a slice and their order; tests load records with two or three keys.", "anchors": ["tensorflow_model_analysis/view/util.py:convert_metrics_proto_to_dict", "tensorflow_model_analysis/view/util.py:convert_attributions_proto_to_dict", "tensorflow_model_analysis/view/view_types.py:EvalResult.get_metrics_for_slice", "tensorflow_model_analysis/view/view_types.py:EvalResult.get_attributions_for_slice"]}
{"id": "C95", "title": "Which results are loaded from several output paths", "statement": "load_eval_results with a model name loads that model from every path, in the order of the paths. Without a model name it loads all the models of all the paths if there is one path or if all the paths have the same single model; in general it loads all the models of the first path that has any and from every later path only the model that came last there.", "quantifier": "for all lists of paths, models by path and outcomes of loading one result", "why_tests_cant": "Tests load two paths with one model each; the rebinding of the argument only matters for several paths with several models.", "anchors": ["tensorflow_model_analysis/api/model_eval_lib.py:load_eval_results"]}
{"id": "C96", "title": "Rows and columns of the data frames of metrics", "statement": "metrics_as_dataframes and plots_as_dataframes put every value of every record into exactly its own rows: one row for a number, one row for every message of a table such as the confusion matrices at thresholds, numbered in the order of the records, with exactly the columns of its slice (or Overall), the parts of its key and the parts of the value; different metric keys differ in their cells, and there is one data frame for every type of value. This needs values without nested repeated fields and types known to the result. It fails for arrays of at least one dimension (TypeError), for multi class confusion matrices at several thresholds (ValueError), for values of other types (TypeError), and cross slice records are shown as the overall slice.", "quantifier": "for all lists of records, slices, keys and values (arbitrary messages without nested repeated fields)", "why_tests_cant": "The row numbers are running counters shared by all records, types and columns; the tests have two records with numbers and one with confusion matrices.", "anchors": ["tensorflow_model_analysis/api/dataframe.py:metrics_as_dataframes", "tensorflow_model_analysis/api/dataframe.py:_to_dataframes", "tensorflow_model_analysis/api/dataframe.py:_flatten_proto"]}
{"id": "C97", "title": "Labels, predictions and weights come from the configured features", "statement": "The label, prediction and example weight that a metric of a model and output is computed from are the values of the features named in the spec of that model (for that output if keys are given per output): the transformed feature of that model if it has one of that name, otherwise the raw feature; a label whose feature is missing is None. This needs models with different names, transformed features for all models or for none, and label keys that are not (beginnings of) names of other models; otherwise the label of another model may be used.", "quantifier": "for all lists of model specs, models, outputs, features and transformed features", "why_tests_cant": "Storing and reading are far apart (extractors and metric_util) and agree only through nested dictionaries whose levels are dropped for single models, single outputs and missing values; tests cover a few shapes of configurations.", "anchors": ["tensorflow_model_analysis/utils/model_util.py:get_feature_values_for_model_spec_field", "tensorflow_model_analysis/extractors/labels_extractor.py:LabelsExtractor", "tensorflow_model_analysis/extractors/example_weights_extractor.py:ExampleWeightsExtractor", "tensorflow_model_analysis/extractors/materialized_predictions_extractor.py:MaterializedPredictionsExtractor", "tensorflow_model_analysis/metrics/metric_util.py:to_label_prediction_example_weight"]}
{"id": "C98", "title": "Metrics use the predictions of their own model and output", "statement": "The prediction a metric is computed from is the output of the model it is computed for: the only output itself, otherwise the output of the metric's output name, of the prediction key or with a common name. A model whose only output is named in the metrics spec makes all metrics of that output fail.", "quantifier": "for all lists of models, outputs and output names", "why_tests_cant": "The stored form depends on the numbers of models and outputs; tests fix both.", "anchors": ["tensorflow_model_analysis/utils/model_util.py:ModelSignaturesDoFn", "tensorflow_model_analysis/metrics/metric_util.py:to_label_prediction_example_weight"]}
{"id": "C99", "title": "Predicting row by row after a failure does not change predictions", "statement": "If predicting a batch fails (an error of TensorFlow, a ValueError, or an output without one row per example), the rows are predicted one by one; either way every example ends up with the prediction for its own row and all its other values, in order, for models that treat rows on their own.", "quantifier": "for all batches of any size with any nested arrays and variable length values, and all row-wise models that may fail on any batches", "why_tests_cant": "The fallback is only taken on resource errors; it splits and rebatches all extracts.", "anchors": ["tensorflow_model_analysis/utils/model_util.py:BatchReducibleBatchedDoFnWithModels", "tensorflow_model_analysis/utils/model_util.py:ModelSignaturesDoFn", "tensorflow_model_analysis/utils/util.py:batch_size"]}
{"id": "C100", "title": "Unbatching keeps the rows together", "statement": "Unbatching a batch of n rows yields n extracts, the i-th of which has the i-th element of every list and the i-th row of every array under the same keys; lists of another length are refused unless they are empty, which are dropped.", "quantifier": "for all batches of at least one row, any keys, lists and nested arrays", "why_tests_cant": "Lists and arrays take different paths that are zipped; tests have small fixed batches.", "anchors": ["tensorflow_model_analysis/extractors/unbatch_extractor.py:UnbatchExtractor", "tensorflow_model_analysis/utils/util.py:split_extracts"]}
{"id": "C101", "title": "Multi-label confusion matrices count the right examples", "statement": "For every schedule of the combiner, the multi-label confusion matrices have one matrix per threshold (listed in ascending order, 0 … 1 in equal steps with num_thresholds), an entry for (actual class, class) exactly if some example has the actual class as a label, and the four cells are the total weights of the examples with that label for which the other class is or is not a label and its prediction is above the threshold or not; the cells of an entry add up to the weight of the examples with the actual class.", "quantifier": "for all lists of thresholds, all numbers of thresholds from 2, all examples with dense labels or one class number, any weights and predictions, and all schedules", "why_tests_cant": "The combiner mutates nested dictionaries in place and merges them in an order chosen by the runner; the tests have two examples and fixed thresholds.", "anchors": ["tensorflow_model_analysis/metrics/multi_label_confusion_matrix_plot.py:_MultiLabelConfusionMatrixPlotCombiner", "tensorflow_model_analysis/metrics/multi_label_confusion_matrix_plot.py:_multi_label_confusion_matrix_plot"]}
{"id": "C102", "title": "Semantic segmentation counts pixels exactly", "statement": "For every schedule, the matrix of each requested class holds the numbers of pixels over all images that are true positives, true negatives, false positives and false negatives of that class, pixels with the ignored true class not counting against other classes; the four add up to the number of pixels that are of the class or not ignored; the derived metrics report exactly the requested classes; images of different sizes are refused, and the images are those found under the configured keys.", "quantifier": "for all class lists, ignored classes, images of any size and all schedules", "why_tests_cant": "Pixels are summed by numpy per image, added per class and merged by the runner; tests use one tiny image.", "anchors": ["tensorflow_model_analysis/metrics/semantic_segmentation_confusion_matrix_metrics.py:_SemanticSegmentationConfusionMatrixCombiner", "tensorflow_model_analysis/metrics/semantic_segmentation_confusion_matrix_metrics.py:SemanticSegmentationConfusionMatrixMetricBase", "tensorflow_model_analysis/metrics/preprocessors/image_preprocessors.py:DecodeImagePreprocessor"]}
{"id": "C103", "title": "Confusion matrix plots have the right rows, cells and derived values", "statement": "For every bundling of the data, a confusion matrix plot with n thresholds (n dividing 10000) has n + 2 rows with ascending thresholds -1e-6, 0, 1/n, ..., 1, and the cells of a row are the weights of the positive and negative labels of the examples counted as predicted positive there and of the others: all at the first threshold, predictions from 0 on at threshold 0, from 1 on at threshold 1, and from 0.0001 above the threshold on in between. The reported thresholds are within 5e-7 of the configured ones and distinct exactly if n is at most a million. Precision, recall, rates, F1 and accuracy are the usual quotients, with precision 1 and recall 0 when undefined and NaN for the other ones.", "quantifier": "for all numbers of thresholds, all data without NaN predictions, all labels, weights and schedules; derived values for all non-negative cells", "why_tests_cant": "A plot is computed from a histogram of rounded predictions merged in any order; tests compare a handful of rows of one data set.", "anchors": ["tensorflow_model_analysis/metrics/confusion_matrix_plot.py:ConfusionMatrixPlot", "tensorflow_model_analysis/metrics/binary_confusion_matrices.py:Matrices.to_proto", "tensorflow_model_analysis/metrics/calibration_histogram.py:rebin"]}
{"id": "C104", "title": "Score distribution plots show the distribution of the scores", "statement": "For scores within [0, 1] and every bundling, each row of a score distribution plot holds the total weight of the scores above the threshold as true positives and of all others as true negatives, nothing else, and the two add up to the total weight; a score outside [0, 1] makes the evaluation fail.", "quantifier": "for all numbers of thresholds, all lists of scores with any weights, and all schedules", "why_tests_cant": "The scores are used as fractional labels, split into two weighted examples, counted as a confusion matrix and put together again.", "anchors": ["tensorflow_model_analysis/metrics/score_distribution_plot.py:_confusion_matrix_plot", "tensorflow_model_analysis/metrics/score_distribution_plot.py:_extract_prediction_and_weight", "tensorflow_model_analysis/metrics/metric_util.py:_yield_fractional_labels"]}
{"id": "C105", "title": "Calibration plot buckets hold the examples of their interval", "statement": "For every bundling, a calibration plot with n buckets consists of n + 2 adjacent buckets from -inf over n equal intervals of the range to +inf, every prediction belongs to exactly one, and if n divides 10000 each bucket holds exactly the total label, prediction and weight of the examples whose prediction is in [lower, upper); the range is the one given, otherwise the label's domain in the schema, otherwise [0, 1].", "quantifier": "for all numbers of buckets, ranges, all data without NaN predictions and all schedules", "why_tests_cant": "The plot is rebinned from a finer histogram whose buckets are merged in any order; tests compare a few buckets.", "anchors": ["tensorflow_model_analysis/metrics/calibration_plot.py:_calibration_plot", "tensorflow_model_analysis/metrics/calibration_plot.py:_to_proto", "tensorflow_model_analysis/metrics/calibration_plot.py:_find_label_domain", "tensorflow_model_analysis/metrics/calibration_histogram.py:rebin"]}
{"id": "C106", "title": "COCO average precision and recall are what they are said to be", "statement": "For every bundling of the images, the average precision of a class at an overlap threshold is the mean over the recall thresholds of the interpolated precision, i.e. of the greatest precision reached by any score threshold whose recall is at least the recall threshold (0 if there is none), computed from the matching of the detections of that class with its ground truth; it lies in [0, 1] and precision falls as the recall threshold rises. The maximum recall is the fraction of the ground truth that is matched. Mean average precision and mean average recall are the averages of these over all configured classes and overlap thresholds, ignoring NaN, and arguments are rejected exactly if they are invalid.", "quantifier": "for all images, boxes, classes, overlap and recall thresholds, area ranges, limits on detections and schedules", "why_tests_cant": "The value passes through greedy matching, stacking, thresholded matrices, interpolation and two averages with NaN; tests compare single numbers.", "anchors": ["tensorflow_model_analysis/metrics/object_detection_metrics.py:COCOAveragePrecision", "tensorflow_model_analysis/metrics/object_detection_metrics.py:COCOMeanAveragePrecision", "tensorflow_model_analysis/metrics/object_detection_metrics.py:COCOAverageRecall", "tensorflow_model_analysis/metrics/object_detection_metrics.py:COCOMeanAverageRecall", "tensorflow_model_analysis/metrics/object_detection_confusion_matrix_metrics.py:ObjectDetectionMaxRecall", "tensorflow_model_analysis/metrics/metric_util.py:validate_object_detection_arguments"]}
{"id": "C107", "title": "Object detection metrics with different settings have results of their own", "statement": "Two object detection metrics whose preprocessors differ in the class, the overlap threshold, the area range, the number of detections or the class weight never share a key or a computation, so that each is computed from its own boxes. (In general the same should hold for the columns the boxes are stacked from, the key with the number of detections and the permission of missing keys, but this is false, as is the analogue for set match metrics that differ in the keys of their classes, scores or weights.)", "quantifier": "for all settings, all requests for matrices, all lists of other configured computations and all injective renderings of names", "why_tests_cant": "Merging depends on generated names; tests configure one metric at a time.", "anchors": ["tensorflow_model_analysis/metrics/preprocessors/object_detection_preprocessors.py:BoundingBoxMatchPreprocessor.__init__", "tensorflow_model_analysis/metrics/metric_types.py:Preprocessor", "tensorflow_model_analysis/metrics/binary_confusion_matrices.py:binary_confusion_matrices", "tensorflow_model_analysis/evaluators/metrics_plots_and_validations_evaluator.py:_filter_and_separate_computations", "tensorflow_model_analysis/metrics/preprocessors/set_match_preprocessors.py:SetMatchPreprocessor.__init__"]}
{"id": "C108", "title": "Set match precision and recall are micro averages over the classes", "statement": "For every bundling of the examples, set match precision is the weight of the classes that are both a label and predicted divided by the weight of all predicted classes, and set match recall is the same weight divided by the weight of all labels, where predicted means occurring among the (first k) predictions with a score above the threshold, weights are example weight times class weight, and there is one value per threshold; with top k and no thresholds every one of the first k predictions counts whatever its score.", "quantifier": "for all examples, label and prediction sets, scores, weights, thresholds, k, model specs and schedules", "why_tests_cant": "The value passes through a preprocessor, weights, fractional label splitting, a histogram or counting combiner and a ratio; tests use a few small sets.", "anchors": ["tensorflow_model_analysis/metrics/set_match_confusion_matrix_metrics.py:SetMatchPrecision", "tensorflow_model_analysis/metrics/set_match_confusion_matrix_metrics.py:SetMatchRecall", "tensorflow_model_analysis/metrics/preprocessors/set_match_preprocessors.py:SetMatchPreprocessor.process", "tensorflow_model_analysis/metrics/binary_confusion_matrices.py:binary_confusion_matrices", "tensorflow_model_analysis/metrics/metric_util.py:to_label_prediction_example_weight"]}
{"id": "C109", "title": "A model is called with the features of its inputs or with the serialized examples, never with a mixture", "statement": "A model that declares named inputs gets for each of them the feature of that name (or of that name without the suffix \"_input\") and nothing else, provided that every declared input has such a feature; otherwise it gets the serialized examples.  What is called with features is the very function whose inputs were matched; serialized examples never go to the model object itself but to its serving signature; features that are no inputs make no difference; a signature that does not exist is a ValueError if it was asked for.", "quantifier": "for all models (own inputs, signatures, attributes), feature dictionaries, input specs and signature names", "why_tests_cant": "Which function is called with what depends on the combination of signature names, model kinds and feature names; tests load a handful of models.", "anchors": ["tensorflow_model_analysis/utils/model_util.py:get_inputs", "tensorflow_model_analysis/utils/model_util.py:filter_by_input_names", "tensorflow_model_analysis/utils/model_util.py:find_input_name_in_features", "tensorflow_model_analysis/utils/model_util.py:get_callable", "tensorflow_model_analysis/utils/model_util.py:get_input_specs", "tensorflow_model_analysis/utils/model_util.py:ModelSignaturesDoFn"]}
{"id": "C110", "title": "Counterfactual predictions are those of the model on examples with replaced features", "statement": "With several named models, every model's prediction stands under its name: a model with a counterfactual config predicts on the examples in which each destination feature of the config has the value that the source feature has in the original example, the other models predict on the original examples; inputs and features are unchanged afterwards, and invalid combinations of models and configs are refused.", "quantifier": "for all models, model specs, configs, examples and features", "why_tests_cant": "Tests run three set-ups with a model that parses serialized examples; swaps, models with named inputs and single models with a name are not covered.", "anchors": ["tensorflow_model_analysis/extractors/counterfactual_predictions_extractor.py:CounterfactualPredictionsExtractor", "tensorflow_model_analysis/extractors/counterfactual_predictions_extractor.py:_cf_preprocess", "tensorflow_model_analysis/extractors/counterfactual_predictions_extractor.py:_cf_postprocess", "tensorflow_model_analysis/extractors/predictions_extractor.py:PredictionsExtractor", "tensorflow_model_analysis/utils/model_util.py:ModelSignaturesDoFn"]}
{"id": "C111", "title": "BLEU statistics are clipped n-gram matches, added up over all sentences", "statement": "For every sentence the number of matching n-grams of each order counts every distinct n-gram as often as it occurs in the hypothesis, at most as often as in the reference that has it most often; the number of n-grams of order n is length + 1 - n; the reference length is the one nearest to the length of the hypothesis. Over a slice these numbers are added up, independently of the schedule, of the order of the references and of how sentences are distributed over examples. Matches never exceed n-grams, a hypothesis equal to a reference matches completely, and one more reference never loses a match.", "quantifier": "for all texts, tokenizers, orders, numbers of references, examples and schedules", "why_tests_cant": "The tests compare a few sentences with sacrebleu; ties, missing references, empty references in mixed examples and surplus hypotheses are not among them.", "anchors": ["tensorflow_model_analysis/metrics/bleu.py:_BleuCombiner", "tensorflow_model_analysis/metrics/bleu.py:_find_closest_ref_len"]}
{"id": "C112", "title": "ROUGE is the weighted average of the scores of the examples, for every model", "statement": "For every schedule the precision, recall and F-measure are the averages over the examples of the scores of their first prediction against all their labels, weighted by the example weights, and NaN if the weights add up to zero; with weights that are not negative they lie between the smallest and the largest of the examples. Every model and output gets its own value.", "quantifier": "for all scorers, texts, weights, schedules, models and outputs", "why_tests_cant": "Tests use one model and few examples; which of several models is evaluated is not tested.", "anchors": ["tensorflow_model_analysis/metrics/rouge.py:RougeCombiner", "tensorflow_model_analysis/metrics/rouge.py:_rouge", "tensorflow_model_analysis/metrics/bleu.py:_bleu", "tensorflow_model_analysis/metrics/metric_util.py:merge_per_key_computations"]}
{"id": "C113", "title": "A fixed size sample has the asked size, contains only values of the data, and is uniform", "statement": "FixedSizeSample gives for a slice exactly min(size, number of examples) values, each value at most as often as it occurs (and all of them if there are not more than the size), namely those with the largest random tags, for every schedule. Over all ways to distribute the tags over the examples, any two sets of examples of the same size are equally often the sample.", "quantifier": "for all sizes, data, distinct tags and schedules; uniformity over all permutations of the tags", "why_tests_cant": "A test with a fixed seed sees one sample; uniformity and independence of bundling and merging are statements about all of them.", "anchors": ["tensorflow_model_analysis/metrics/sample_metrics.py:_FixedSizeSampleCombineFn", "tensorflow_model_analysis/utils/beam_util.py:DelegatingCombineFn"]}
{"id": "C114", "title": "The slicing view and the time series view show exactly the slices that were asked for", "statement": "render_slicing_metrics shows for a column exactly the slices of that column alone, for a spec exactly the slices the spec asks for, and otherwise the overall slice, each with its own metrics and in the order of the results; if there are none it raises ValueError. render_time_series has, in the order of the runs, one point for every run that has the slice, with the metrics, model and data of that run; it raises ValueError if a run has several or no run has one.", "quantifier": "for all results, columns, specs, runs and conversions of numbers", "why_tests_cant": "The views are filters over results of any size and content; tests show a few results without cross slices.", "anchors": ["tensorflow_model_analysis/view/util.py:get_slicing_metrics", "tensorflow_model_analysis/view/util.py:find_all_slices", "tensorflow_model_analysis/view/util.py:get_time_series", "tensorflow_model_analysis/slicer/slicer_lib.py:is_slice_applicable"]}
{"id": "C115", "title": "A computed plot is the plot that is shown", "statement": "A plot that was computed for a slice, model, output and sub key is, after writing and loading the results, what render_plot shows for that slice, output and sub key; nothing that was not computed for them is shown.", "quantifier": "for all plots of a slice, names, models, outputs, sub keys, slices and other loaded results", "why_tests_cant": "Tests write one or two plots with default names; collisions depend on the combination of names, weightings and sub keys.", "anchors": ["tensorflow_model_analysis/writers/metrics_plots_and_validations_writer.py:convert_slice_plots_to_proto", "tensorflow_model_analysis/view/util.py:convert_plots_proto_to_dict", "tensorflow_model_analysis/view/util.py:get_plot_data_and_config"]}
{"id": "C116", "title": "Metrics saved with a Keras model are reported under their own output and name, with their value over all examples", "statement": "A metric that was saved with a Keras model is reported under the name it was given and the output it belongs to, and its value is the value over all examples of the slice, whatever batches the examples arrive in and however accumulators are compacted and merged.", "quantifier": "for all Keras models with metrics that add up contributions of examples, names of outputs and metrics, examples, batch sizes and schedules of the runner", "why_tests_cant": "The name of the output is guessed from the prefix of the metric's name and the accumulators are positional, so correctness depends on the combination of all names of a model; tests use one output or names that do not overlap.", "anchors": ["tensorflow_model_analysis/evaluators/keras_util.py:metric_computations_using_keras_saved_model", "tensorflow_model_analysis/evaluators/keras_util.py:_KerasEvaluateCombiner", "tensorflow_model_analysis/evaluators/keras_util.py:_KerasCombiner", "tensorflow_model_analysis/metrics/tf_metric_accumulators.py:TFMetricsAccumulator"]}
{"id": "C117", "title": "Every evaluator runs exactly once, on the extracts of the stage it asks for", "statement": "In a pipeline that can be built every evaluator is applied exactly once, to the extracts after the extractor named by its run_after (before all extractors, or after the last one, if it asks for that), and the results contain its output: unchanged if no other evaluator has the same output key, otherwise combined with theirs, each once. An evaluator whose run_after names no extractor is refused, and so are stages with the same name.", "quantifier": "for all lists of extractors and evaluators, transforms and outputs", "why_tests_cant": "The wiring is a nested loop over names; whether an evaluator runs none, one or several times depends on all names of a pipeline, while tests wire one evaluator behind one or two extractors.", "anchors": ["tensorflow_model_analysis/api/model_eval_lib.py:ExtractAndEvaluate", "tensorflow_model_analysis/api/model_eval_lib.py:ExtractEvaluateAndWriteResults", "tensorflow_model_analysis/evaluators/evaluator.py:verify_evaluator"]}
{"id": "C118", "title": "Default extractors, evaluators and writers fit together, and disabled outputs are not written", "statement": "For all models that are not refused, the default extractors run in an order in which each finds what it needs, exactly one of them adds predictions, a custom predict extractor being used if given, and the default evaluator gets the extracts after all of them; inputs with and without a configuration are read; outputs that are listed in disabled_outputs are not written and the others are.", "quantifier": "for all combinations of model types, configurations, disabled outputs, inputs and transforms", "why_tests_cant": "The defaults are chosen by nested case distinctions over sets of model types and options; tests run a few end-to-end pipelines with the default options.", "anchors": ["tensorflow_model_analysis/api/model_eval_lib.py:default_extractors", "tensorflow_model_analysis/api/model_eval_lib.py:default_evaluators", "tensorflow_model_analysis/api/model_eval_lib.py:WriteResults", "tensorflow_model_analysis/api/model_eval_lib.py:ExtractEvaluateAndWriteResults", "tensorflow_model_analysis/extractors/features_extractor.py", "tensorflow_model_analysis/writers/eval_config_writer.py"]}
{"id": "C119", "title": "Specs built from metric objects ask for exactly what was given", "statement": "specs_from_metrics returns specs that contain every given metric for its outputs, with the binarization, aggregation, query key and output weights of the call, unweighted if it was given so; the number of examples exactly once and the weighted number of examples for each output; arguments that do not fit together are refused with a ValueError and all others are accepted. The default specs of a multi-class model hold the binary metrics for the classes asked for (micro averaged unless said otherwise), and precision and recall for each top k.", "quantifier": "for all lists or dictionaries of metrics, output names, options and defaults", "why_tests_cant": "The function calls itself for each output and passes only part of its arguments on; tests build specs for one output with a few options and compare the text.", "anchors": ["tensorflow_model_analysis/metrics/metric_specs.py:specs_from_metrics", "tensorflow_model_analysis/metrics/metric_specs.py:example_count_specs", "tensorflow_model_analysis/metrics/metric_specs.py:default_regression_specs", "tensorflow_model_analysis/metrics/metric_specs.py:default_binary_classification_specs", "tensorflow_model_analysis/metrics/metric_specs.py:default_multi_class_classification_specs"]}
{"id": "C120", "title": "Keras metrics are computed for exactly what the specs need, once, and none replaces another", "statement": "For each model, sub key, aggregation, class weights and kind of example weights there is at most one evaluation of Keras metrics; it has, for each output, exactly the metrics that the specs ask for, and those that macro averages are taken over, the latter under a private name unless they are asked for anyway. Specs are refused exactly if a k is below 1, class weights come with top_k_list, or a macro average has nothing to average over. The values of different evaluations are reported under different keys.", "quantifier": "for all lists of metrics specs with Keras metrics and losses", "why_tests_cant": "Grouping several specs by five properties is not visible in the results of a test with one spec, and lost values show only if two metrics have the same name.", "anchors": ["tensorflow_model_analysis/metrics/metric_specs.py:_process_tf_metrics_specs", "tensorflow_model_analysis/metrics/metric_specs.py:to_computations", "tensorflow_model_analysis/metrics/tf_metric_wrapper.py:tf_metric_computations"]}
{"id": "C121", "title": "Each metric config gets the class it names", "statement": "A MetricConfig is turned into an object of the registered TFMA metric of its class name; if there is none, of the Keras metric of that name if no module is set, else of the class of that name in the module, which is a Keras metric, a Keras loss or a TFMA metric. Its settings are those of the config, plus a default name for Keras objects. metric_instance does this for one config, to_computations for all the configs of all specs, in each spec each config once; a config is refused exactly if it names no such class or the class does not take the settings.", "quantifier": "for all metrics specs, registries, importable classes and settings", "why_tests_cant": "Classes found while reading one config are kept for the configs and specs after it; tests read specs with one custom class.", "anchors": ["tensorflow_model_analysis/metrics/metric_specs.py:metric_instance", "tensorflow_model_analysis/metrics/metric_specs.py:to_computations", "tensorflow_model_analysis/metrics/metric_specs.py:_deserialize_tf_metric", "tensorflow_model_analysis/metrics/metric_specs.py:_deserialize_tf_loss", "tensorflow_model_analysis/metrics/metric_specs.py:_deserialize_tfma_metric", "tensorflow_model_analysis/metrics/metric_types.py:registered_metrics"]}
{"id": "C122", "title": "A metric object comes back from its config", "statement": "config_from_metric followed by metric_instance gives the object back, or, for Keras objects of which TFMA has an implementation, TFMA's metric with the same settings, where only settings that are at their defaults are dropped; if a setting that TFMA does not have is not at its default, Keras' own metric is kept.", "quantifier": "for all metric objects of Keras and TFMA and all their settings", "why_tests_cant": "The table of settings is spelled by hand and looked up by name at two places; tests go through the supported defaults.", "anchors": ["tensorflow_model_analysis/metrics/metric_specs.py:config_from_metric", "tensorflow_model_analysis/metrics/metric_specs.py:_is_supported_tf_metric", "tensorflow_model_analysis/metrics/metric_specs.py:_remove_unsupported_tf_settings", "tensorflow_model_analysis/metrics/metric_specs.py:_serialize_tf_metric", "tensorflow_model_analysis/metrics/metric_util.py:serialize_metric"]}
{"id": "C123", "title": "Slice keys from SQL statements", "statement": "With statements in slice_keys_sql each example of a batch is put, exactly once, into each slice that a slicing spec describes for it or that a statement returns for its own features, and into no other slice, whatever the other examples of the batch are and also if no example of the batch is in a slice of a statement. A statement sees the transformed feature of the first model that has it, else the feature. A statement that does not compile for the columns of a batch stops the evaluation with a RuntimeError.", "quantifier": "for all slicing specs, statements, batches, models and transformed features", "why_tests_cant": "Statements run on whole batches, their results are stored in one tensor for the batch and taken apart again; tests run one or two statements on a batch of three examples.", "anchors": ["tensorflow_model_analysis/extractors/sql_slice_key_extractor.py:ExtractSqlSliceKeyFn.process", "tensorflow_model_analysis/extractors/sql_slice_key_extractor.py:ExtractSqlSliceKeyFn.setup", "tensorflow_model_analysis/extractors/slice_key_extractor.py:ExtractSliceKeysFn.process", "tensorflow_model_analysis/extractors/slice_key_extractor.py:SliceKeyExtractor", "tensorflow_model_analysis/utils/util.py:split_extracts", "tensorflow_model_analysis/slicer/slicer_lib.py:SingleSliceSpec"]}
{"id": "C124", "title": "Shared standard inputs of metrics", "statement": "For each example the combiner of a metric gets the outputs of its own preprocessors if it has any; otherwise it gets exactly one StandardMetricInputs, which holds everything the metric asked for (labels, predictions and example weights if it asked for nothing in particular) and otherwise only what other metrics asked for. It is never less than what its own preprocessor would have given. An example is refused with a ValueError exactly when some metric asks for labels, predictions, attributions or features and the extracts have none. The preprocessors for inputs, features, transformed features, combined features and attributions ask for exactly the features, models and outputs named.", "quantifier": "for all lists of computations with and without preprocessors, all filters and all extracts", "why_tests_cant": "The filters of all metrics of an evaluation are merged; what a metric gets depends on all the other metrics, in their order. Tests merge two filters at most.", "anchors": ["tensorflow_model_analysis/evaluators/metrics_plots_and_validations_evaluator.py:_PreprocessorDoFn.process", "tensorflow_model_analysis/metrics/metric_types.py:StandardMetricInputsPreprocessor", "tensorflow_model_analysis/metrics/metric_types.py:StandardMetricInputsPreprocessorList", "tensorflow_model_analysis/metrics/metric_types.py:FeaturePreprocessor", "tensorflow_model_analysis/metrics/metric_types.py:CombinedFeaturePreprocessor", "tensorflow_model_analysis/metrics/metric_types.py:AttributionPreprocessor", "tensorflow_model_analysis/metrics/metric_util.py:to_standard_metric_inputs"]}
{"id": "C125", "title": "Metrics by query key", "statement": "With query_key in a metrics spec the examples are divided into queries: two examples are in the same query exactly if the values of their query feature print as the same text, examples without the feature counting as the empty text. A slice gets exactly one record for each query with some example in the slice, and none for other queries; the record holds all the examples of the query. total_queries of a slice is the number of these queries, total_documents the number of their examples. An example whose query feature has no or several values fails the run with ValueError. Each query key gets one evaluation with exactly the specs that have it, in order; the metrics saved with the models are computed unless the options forbid it.", "quantifier": "for all examples, slices and values of the query feature, all ways of running the grouping and the combiner, and all lists of specs", "why_tests_cant": "Grouping is distributed and merges arrays of any shapes; a query is counted in several slices through a set of keys read back from one of three array layouts. Tests group a handful of examples with one model.", "anchors": ["tensorflow_model_analysis/evaluators/metrics_plots_and_validations_evaluator.py:_GroupByQueryKey", "tensorflow_model_analysis/evaluators/metrics_plots_and_validations_evaluator.py:_EvaluateMetricsPlotsAndValidations", "tensorflow_model_analysis/metrics/metric_util.py:to_scalar", "tensorflow_model_analysis/utils/util.py:merge_extracts", "tensorflow_model_analysis/slicer/slicer_lib.py:_FanoutSlicesDoFn.process", "tensorflow_model_analysis/metrics/query_statistics.py:_QueryStatisticsCombiner"]}
{"id": "C126", "title": "What is written to files is what is loaded from them", "statement": "A run writes metrics, plots, attributions, a verdict and its configuration to files of one directory. Loading them gives back exactly what was written: every record once, whatever the number of shards and the order in which the file system lists them, and never a record of another output; the verdict; the configuration with version, data and model locations. With slicing specs, exactly the records of the requested slices are loaded. Formats that are not supported are refused, results in one format are not read as the other, and results without suffixes (from old versions) are still found.", "quantifier": "for all records, shards, supported formats, listings of the directory, other files in it, slicing specs and configurations", "why_tests_cant": "What is found depends on patterns of names over whatever happens to be in the directory and on sharding chosen by the runner. Tests write one shard to an empty temporary directory.", "anchors": ["tensorflow_model_analysis/writers/metrics_plots_and_validations_writer.py:load_and_deserialize_metrics", "tensorflow_model_analysis/writers/metrics_plots_and_validations_writer.py:load_and_deserialize_validation_result", "tensorflow_model_analysis/writers/metrics_plots_and_validations_writer.py:_WriteMetricsPlotsAndValidations", "tensorflow_model_analysis/writers/metrics_plots_and_validations_writer.py:_raw_value_iterator", "tensorflow_model_analysis/writers/eval_config_writer.py:load_eval_run", "tensorflow_model_analysis/writers/eval_config_writer.py:_WriteEvalConfig"]}
{"id": "C127", "title": "Total and mean attributions add up the selected scores", "statement": "For each feature, a total attribution metric reports the sum, over the examples that have the feature, of the score times the example's weight (or of the absolute value of this product), position by position; a mean attribution metric reports that sum divided by the number of examples (by their total weight if weighted). With a sub key the scores added up are those of the class, the k-th largest, or the k largest in descending order. Examples are refused if they have no attributions, if the class or k is out of range, or if the scores of a feature differ in size. Values are written as numbers, or as arrays if there are several.", "quantifier": "for all examples, weights, features, scores with at most one dimension, sub keys, models and outputs, and all distributions of the examples over workers", "why_tests_cant": "The sums depend on how examples are distributed and on which of them have the feature; selection depends on the order of scores including ties. Tests use two examples in one bundle.", "anchors": ["tensorflow_model_analysis/metrics/attributions.py:TotalAttributions", "tensorflow_model_analysis/metrics/attributions.py:MeanAttributions", "tensorflow_model_analysis/metrics/attributions.py:_TotalAttributionsCombiner", "tensorflow_model_analysis/metrics/attributions.py:_scores_by_class_id", "tensorflow_model_analysis/metrics/attributions.py:_scores_by_top_k", "tensorflow_model_analysis/writers/metrics_plots_and_validations_writer.py:convert_slice_attributions_to_proto"]}
{"id": "C128", "title": "Flip rates compare each model with the baseline at their own threshold", "statement": "For every model that is not the baseline, every output and every sub key, a flip rate metric reports the share of the weight of the examples on which the baseline and the model are on the sides of the threshold that the rate is named after; a prediction equal to the threshold is negative. The four rates of the directions add up to one, the symmetric rate is the sum of those in which the sides differ, and rates lie between 0 and 1. Metrics with different thresholds in one evaluation do not influence one another, and BooleanFlipRates reports the five rates under their own names. The keys are marked as differences and the baseline is never compared with itself.", "quantifier": "for all examples with predictions of named models and outputs, weights, thresholds, model specs, sets of flip rate metrics in one evaluation and all distributions of the examples over workers", "why_tests_cant": "Rates are derived from counts that metrics share under generated private names; whether the right counts are read depends on the whole set of metrics. Tests use one metric, one model and one threshold.", "anchors": ["tensorflow_model_analysis/metrics/flip_metrics.py:_FlipRateBase._metric_computations", "tensorflow_model_analysis/metrics/flip_metrics.py:_flip_counts", "tensorflow_model_analysis/metrics/flip_metrics.py:_boolean_flip_rates_computations", "tensorflow_model_analysis/metrics/flip_metrics.py:_BooleanFlipCountsCombiner.add_input", "tensorflow_model_analysis/metrics/prediction_difference_metrics.py:_symmetric_prediction_difference_computations", "tensorflow_model_analysis/metrics/model_cosine_similarity.py:ModelCosineSimilarity", "tensorflow_model_analysis/metrics/metric_util.py:generate_private_name_from_arguments"]}
{"id": "C129", "title": "Labels and predictions set for a model and output are those got for them", "statement": "What is set in StandardExtracts for an extract, a model name and an output name is what is got for them afterwards; values of other extracts, models and outputs stay as they are. Setting fails with a RuntimeError exactly if a value that is no dictionary stands in the way. get_model_and_output_names lists every model and output with predictions exactly once, and the predictions of every listed pair can be got. Key paths of nested dictionaries are the paths of the values that are no dictionaries.", "quantifier": "for all nested dictionaries of any depth and size, extract keys, model and output names and values", "why_tests_cant": "The shape of extracts depends on the numbers of models and outputs, and names are guessed from it; tests use a few fixed shapes.", "anchors": ["tensorflow_model_analysis/utils/util.py:StandardExtracts.get_by_key", "tensorflow_model_analysis/utils/util.py:StandardExtracts._set_by_key", "tensorflow_model_analysis/utils/util.py:StandardExtracts.get_model_and_output_names", "tensorflow_model_analysis/utils/util.py:_set_by_keys", "tensorflow_model_analysis/utils/util.py:_get_keys", "tensorflow_model_analysis/metrics/metric_types.py:StandardMetricInputs.get_by_key"]}
{"id": "C130", "title": "Derived metrics and differences get confidence intervals of their own", "statement": "With confidence intervals, a metric derived from others, the difference between a model and the baseline model and the difference between two slices each get an interval computed from the value of that metric in every sample: for the jackknife from the data without one bucket, for the Poisson bootstrap from the data with each element repeated as drawn. The reported unsampled value is the one for all the data. A pair of slices of which one is missing in a sample gets the plain differences and an error entry. Intervals are computed exactly if they are enabled and a method is set.", "quantifier": "for all data, numbers of samples, random draws, derived metrics, cross slicing specs, slices, metric keys, and all arrival orders, bundlings and merges of both combinations", "why_tests_cant": "The interval goes through two combinations with random partitions between them; tests compare a few values within a tolerance and one cross slicing spec.", "anchors": ["tensorflow_model_analysis/evaluators/jackknife.py:ComputeWithConfidenceIntervals", "tensorflow_model_analysis/evaluators/poisson_bootstrap.py:ComputeWithConfidenceIntervals", "tensorflow_model_analysis/evaluators/metrics_plots_and_validations_evaluator.py:_get_confidence_interval_params", "tensorflow_model_analysis/evaluators/metrics_plots_and_validations_evaluator.py:_AddDerivedCrossSliceAndDiffMetrics", "tensorflow_model_analysis/utils/config_util.py:update_eval_config_with_defaults"]}
{"id": "C131", "title": "run_model_analysis returns one result per model, with the records of the run and the location of that model", "statement": "A run with an accepted configuration, starting from a directory without results, returns the result of its only model, or one result per model of the configuration in their order; each consists of exactly the records of the run converted for that model, with the configuration, data location and path of that model. default_eval_shared_model gives a model the type, weights, tags and baseline flag of its spec. multiple_model_analysis and multiple_data_analysis return the result of every run in order. analyze_raw_data uses the columns named by the model specs, 'prediction' and 'label' by default, and refuses frames without them.", "quantifier": "for all configurations, models, model paths, tags, data formats, outputs of the pipeline, numbers of shards and conversions of records", "why_tests_cant": "The functions combine defaults, two updates of the configuration, files and loading; tests run a few configurations end to end and compare some metrics, never the assignment of results to models under arbitrary configurations.", "anchors": ["tensorflow_model_analysis/api/model_eval_lib.py:run_model_analysis", "tensorflow_model_analysis/api/model_eval_lib.py:default_eval_shared_model", "tensorflow_model_analysis/api/model_eval_lib.py:single_model_analysis", "tensorflow_model_analysis/api/model_eval_lib.py:multiple_model_analysis", "tensorflow_model_analysis/api/model_eval_lib.py:multiple_data_analysis", "tensorflow_model_analysis/api/model_eval_lib.py:analyze_raw_data", "tensorflow_model_analysis/api/model_eval_lib.py:load_eval_result", "tensorflow_model_analysis/utils/model_util.py:get_model_type", "tensorflow_model_analysis/utils/model_util.py:get_model_spec"]}
{"id": "C132", "title": "auto_pivot shows every value once, under its slice and its key", "statement": "auto_pivot of a data frame of metrics or plots shows the value of every row in the row of its slice and the column of its value name and key, and no other values; rows and columns have different names, also after collapsing. The columns pivoted on are exactly those parts of the keys that are not the same in all rows (a missing value counts as a value), those with most values first, then by name, so that the name of a column determines the whole key. If all keys are the same the rows are kept. It refuses exactly frames without slices, keys or values, and frames in which two rows have the same slice and key while the keys are not all the same; the metrics of a result are never refused for that reason.", "quantifier": "for all data frames with any columns and rows, both settings of stringify_slices and collapse_column_names, and all ways to turn values into texts", "why_tests_cant": "Which columns are pivoted, whether entries collide and whether the collapsed names are still unique depends on the whole frame; the tests pivot five small frames.", "anchors": ["tensorflow_model_analysis/api/dataframe.py:auto_pivot", "tensorflow_model_analysis/api/dataframe.py:_auto_pivot", "tensorflow_model_analysis/api/dataframe.py:_stringify_slices", "tensorflow_model_analysis/api/dataframe.py:_collapse_column_names"]}
{"id": "C133", "title": "Multi-class confusion matrices: thresholds, arithmetic and written form", "statement": "A MultiClassConfusionMatrixAtThresholds metric and a MultiClassConfusionMatrixPlot show the counts at the thresholds they are configured with (default one half for the metric and zero for the plot; n evenly spaced thresholds appear as 0, 1/(n-1), ..., 1, where the first and last are moved outwards for counting), whatever other metrics and plots are configured. Thresholds and num_thresholds together are refused. Differences, sums and quotients of two results are taken per threshold and pair of classes with missing counts as zero; operations with a number apply to every count; anything else is refused. The written form lists all thresholds in ascending order with all their counts in ascending order of classes.", "quantifier": "for all lists of metrics and plots with different keys, all thresholds, all data and executions of the combiner, all operations and all pairs of results", "why_tests_cant": "Tests configure one metric or one plot at a time, so that they cannot see computations shared between several; arithmetic and ordering hold for all dictionaries, not for samples.", "anchors": ["tensorflow_model_analysis/metrics/multi_class_confusion_matrix_metrics.py:_multi_class_confusion_matrix_at_thresholds", "tensorflow_model_analysis/metrics/multi_class_confusion_matrix_metrics.py:multi_class_confusion_matrices", "tensorflow_model_analysis/metrics/multi_class_confusion_matrix_metrics.py:Matrices", "tensorflow_model_analysis/metrics/multi_class_confusion_matrix_plot.py:_multi_class_confusion_matrix_plot", "tensorflow_model_analysis/api/types.py:StructuredMetricValue._apply_binary_op"]}
{"id": "C134", "title": "Features extracted from record batches", "statement": "The FeaturesExtractor turns every list column of numbers or texts of an Arrow record batch into a feature holding the rows of the column: a dense array if all rows are there and have one size, one None per row if no row is there, variable length rows otherwise; a tensor representation given under the name of a column (or of a sparse tensor whose columns are all there) decides instead. Columns of other types are dropped, existing features of other names and all other extracts are kept, values of the record batch win over existing features, the record batch is removed, and the serialized inputs appear under 'input', one per row. Extracts with features but no record batch pass unchanged, with neither the extractor fails with ValueError. The incoming extracts are not changed.", "quantifier": "for all record batches with distinct column names, all representations and conversions, and all other contents of the extracts", "why_tests_cant": "Tests convert a few hand-written batches through Arrow and TFX-BSL and compare the output; that nothing is lost or mixed up for any combination of column types, missing rows, row sizes, given representations and existing extracts is not checked, and no test looks at the incoming extracts afterwards.", "anchors": ["tensorflow_model_analysis/extractors/features_extractor.py:_ExtractFeatures", "tensorflow_model_analysis/extractors/features_extractor.py:_drop_unsupported_columns_and_fetch_raw_data_column", "tensorflow_model_analysis/utils/util.py:record_batch_to_tensor_values", "tensorflow_model_analysis/utils/util.py:to_varlen_sparse_tensor_value"]}
{"id": "C135", "title": "Predictions by bulk inference", "statement": "With the TFX-BSL predictions extractor every example of every batch comes out exactly once with the predictions each configured model makes for its own serialized input, and with all its other extracts unchanged. The model of a spec is the one of its name (or the only one, if unnamed), called with the configured signature, by default 'predict' if the model has it and 'serving_default' otherwise. With one model the predictions are stored as they are, with several by model name; a single output is stored as it is, several by output name, classifications as classes and scores. Examples without serialized input, logs of other kinds and specs without model are refused. A configuration is reported as fit for bulk inference exactly if all models are of a supported type and all signatures take one input of serialized examples.", "quantifier": "for all models (functions from serialized examples to prediction logs), all sets of named models and specs, all batches and all paths to store predictions under", "why_tests_cant": "Tests run one or two saved models over a few examples and mostly compare shapes; that predictions are never attached to another example or another model's name holds for all batches and model lists only by proof.", "anchors": ["tensorflow_model_analysis/extractors/inference_base.py:RunInference", "tensorflow_model_analysis/extractors/inference_base.py:insert_predictions_into_extracts", "tensorflow_model_analysis/extractors/inference_base.py:_parse_prediction_log_to_tensor_value", "tensorflow_model_analysis/extractors/inference_base.py:is_valid_config_for_bulk_inference", "tensorflow_model_analysis/extractors/tfx_bsl_predictions_extractor.py:TfxBslPredictionsExtractor", "tensorflow_model_analysis/utils/model_util.py:get_eval_shared_model"]}
{"id": "C136", "title": "Keras metrics computed from confusion matrices have the value Keras gives them", "statement": "A Keras AUC, SpecificityAtSensitivity, SensitivityAtSpecificity, TruePositives, FalsePositives, TrueNegatives, FalseNegatives, Precision or Recall metric is reported under its own name, model, output and sub key with the value its result method returns after the metric was updated with all the examples, although TFMA never updates it but assigns counters taken from confusion matrices. The label weights of an AUC serve as class weights; configuring both, the multi label mode, or a class other than the one asked for is refused.", "quantifier": "for all nine classes, all threshold lists, names, sub keys and aggregation settings, all examples with labels 0 and 1, all bundlings and every result method", "why_tests_cant": "The comparison with Keras is made by unit tests on four to eight examples with predictions such as 0.5 or 0.9, which sit on the grid of the histogram; when a threshold list is computed by histogram instead of counting, and what that changes, depends on the whole list.", "anchors": ["tensorflow_model_analysis/metrics/tf_metric_wrapper.py:_wrap_confusion_matrix_metric", "tensorflow_model_analysis/metrics/tf_metric_wrapper.py:_verify_and_update_sub_key", "tensorflow_model_analysis/metrics/tf_metric_wrapper.py:_separate_confusion_matrix_metrics"]}
{"id": "C137", "title": "Confusion matrix metrics count what their thresholds say", "statement": "ConfusionMatrixAtThresholds and every metric based on confusion matrices are computed, for every bundling, from the weights of the positive and negative examples whose prediction exceeds each threshold and of the others, at the thresholds given as a list or a number, or at the default threshold of the metric, or, for the top k predictions, by whether the prediction is among the top k; the value is stored under the name, model, output and aggregation of the metric with a sub key joining those of the metric and the specification.", "quantifier": "for all threshold arguments, defaults, sub keys and settings top_k and class_id, all examples with labels 0 and 1, all bundlings and every function from matrices to values", "why_tests_cant": "Each metric class is tested with one or two threshold settings on a handful of rows; the choice between the arguments, the default and top k and between counting and histogram is the same code for thirty classes.", "anchors": ["tensorflow_model_analysis/metrics/confusion_matrix_metrics.py:ConfusionMatrixAtThresholds", "tensorflow_model_analysis/metrics/confusion_matrix_metrics.py:ConfusionMatrixMetricBase", "tensorflow_model_analysis/metrics/confusion_matrix_metrics.py:_validate_and_update_sub_key", "tensorflow_model_analysis/metrics/binary_confusion_matrices.py:binary_confusion_matrices"]}
{"id": "C138", "title": "TFLite predictions depend on the example alone", "statement": "The predictions a TFLite model adds to a batch are, example by example, the dequantized outputs of the model for the quantized feature values of that example, found under the name an input had before conversion; they depend neither on the other examples of the batch nor on the sizes of earlier batches, although the interpreter is shared and resized. A missing or incomplete value is replaced by -1 or the empty text. With several models the predictions of each are stored under its name and other stored predictions stay; with one they are stored by themselves.", "quantifier": "for all interpreters whose model computes each row from the same row of its inputs, all input and output details, all features, batch sizes, model lists and interpreter states", "why_tests_cant": "Unit tests run one model on two or three examples with a fresh interpreter; stale shapes, values left over from another batch and the combination of missing values with input types and quantization need all batches and states.", "anchors": ["tensorflow_model_analysis/extractors/tflite_predict_extractor.py:TFLitePredictionDoFn"]}
{"id": "C139", "title": "TFJS predictions belong to their examples", "statement": "The predictions a TFJS model adds to a batch whose features are arrays are, example by example, the outputs of the model for the feature values of that example; the batch is refused exactly if a feature needed by the model is missing or the values do not have the shape the model expects of one example.", "quantifier": "for all models whose binary computes each row from the same row of its inputs and fails on inputs of different lengths, all signatures, features and batch sizes", "why_tests_cant": "The binary is not available in unit tests of the logic; a test with one or two well shaped features does not show what happens when the reshaping of the values of an example yields another number of rows than one.", "anchors": ["tensorflow_model_analysis/extractors/tfjs_predict_extractor.py:_TFJSPredictionDoFn"]}
{"id": "C140", "title": "Object detection precision and recall count boxes", "statement": "For every way of bundling the data, object detection precision is the weight of the matched detections above the threshold among the weight of all detections of the class in the area range above the threshold, and recall is the weight of the matched detections above the threshold among the weight of the ground truths, where detections are matched greedily image by image; precision and threshold at recall are the best precision and the largest threshold among the thresholds with at least that recall. A model that detects nothing has no precision at a positive recall.", "quantifier": "for all images, boxes, classes, area ranges, limits, example and class weights, thresholds or numbers of thresholds, recalls, bundlings and merge orders", "why_tests_cant": "The unit tests check two images with three or five thresholds and their expected values contain the effect of the lowest threshold, at which ground truths that were not found count as found; the relation to the boxes holds or fails for all images and thresholds.", "anchors": ["tensorflow_model_analysis/metrics/object_detection_confusion_matrix_metrics.py:ObjectDetectionPrecisionAtRecall", "tensorflow_model_analysis/metrics/object_detection_confusion_matrix_metrics.py:ObjectDetectionRecall", "tensorflow_model_analysis/metrics/object_detection_confusion_matrix_metrics.py:ObjectDetectionPrecision", "tensorflow_model_analysis/metrics/object_detection_confusion_matrix_metrics.py:ObjectDetectionMaxRecall", "tensorflow_model_analysis/metrics/object_detection_confusion_matrix_metrics.py:ObjectDetectionThresholdAtRecall"]}
{"id": "C141", "title": "Query metrics are weighted means over queries", "statement": "For every bundling and merge order of the queries, the nDCG reported for a position is the weighted mean over the queries of the gain of the given ranking relative to the best ranking of the same documents, the minimum label position is the weighted mean of the position of the first positive label over the queries that have one, and the statistics are the number of queries and documents and the smallest and largest number of documents of a query. Queries are refused exactly if their documents disagree about the weight or lack a single gain or label.", "quantifier": "for all lists of queries, documents, features, labels, weights, positions, bundlings and merge orders", "why_tests_cant": "There are no unit tests of these combiners left in the repository, and a test with weights of 1 cannot tell a sum of positions from a weighted sum.", "anchors": ["tensorflow_model_analysis/evaluators/query_metrics/ndcg.py:NdcgMetricCombineFn", "tensorflow_model_analysis/evaluators/query_metrics/min_label_position.py:MinLabelPositionCombineFn", "tensorflow_model_analysis/evaluators/query_metrics/query_statistics.py:QueryStatisticsCombineFn"]}
{"id": "C142", "title": "The legacy bootstrap reports unsampled values with the spread of the samples", "statement": "For every set of bootstrap samples, every order in which the runner passes them and metrics that are numbers or arrays of any shape, the legacy Poisson bootstrap reports for each slice of the data and each metric the value in all data together with the mean, the standard deviation and the degrees of freedom of the values in the samples, element by element; messages are reported as they are in all data; a slice whose samples have other metrics than all data is refused; without at least two samples the metrics in all data are reported as they are.", "quantifier": "for all numbers of samples, slices, metrics, shapes of arrays, values, NaN among the samples and orders of the samples", "why_tests_cant": "Tests use one seed and a few metrics; slices that are drawn in one sample, or in none, and numbers that are NaN in all samples need particular draws.", "anchors": ["tensorflow_model_analysis/evaluators/legacy_poisson_bootstrap.py:ComputeWithConfidenceIntervals", "tensorflow_model_analysis/evaluators/legacy_poisson_bootstrap.py:_MergeBootstrap", "tensorflow_model_analysis/evaluators/legacy_poisson_bootstrap.py:_calculate_t_distribution"]}
{"id": "C143", "title": "Each confusion matrix plot shows its own data", "statement": "For every list of confusion matrix plots with distinct plot keys, the evaluation of a slice yields exactly one plot for each, under its own key, which shows the confusion matrices of the histogram of its own preprocessors, class and weights at its own thresholds; object detection plots are refused exactly if a class weight is negative, the area range is upside down, the number of detections is not positive or columns are stacked with an output name.", "quantifier": "for all numbers of plots, names, models, outputs, sub keys, aggregations, class weights, thresholds, preprocessors, and all meanings of histograms and matrices", "why_tests_cant": "Tests configure one plot at a time; the matrices are shared through keys which leave out part of the arguments, so that a wrong plot appears only for particular combinations.", "anchors": ["tensorflow_model_analysis/metrics/confusion_matrix_plot.py:_confusion_matrix_plot", "tensorflow_model_analysis/metrics/object_detection_confusion_matrix_plot.py:_confusion_matrix_plot", "tensorflow_model_analysis/metrics/binary_confusion_matrices.py:binary_confusion_matrices", "tensorflow_model_analysis/evaluators/metrics_plots_and_validations_evaluator.py:_filter_and_separate_computations"]}
{"id": "C144", "title": "Materialized columns show the values of their own features", "statement": "Materializing extracts gives every feature, prediction and label which is not excluded a column of its own, whose name tells the dictionary and the feature, and which shows the values of that feature; features of the serialized example complete those of the model without changing any; meta features are added beside the existing features and are refused if their name exists; nothing else in the extracts changes.", "quantifier": "for all extracts, all numbers and names of features, predictions, labels and additional extracts, all excluded names, all sources and destinations, all meta feature functions", "why_tests_cant": "Tests materialize one small example with names that do not clash; whether two features share a column depends on the names of all of them together.", "anchors": ["tensorflow_model_analysis/extractors/legacy_feature_extractor.py:_AugmentExtracts", "tensorflow_model_analysis/extractors/legacy_feature_extractor.py:_ParseExample", "tensorflow_model_analysis/extractors/legacy_feature_extractor.py:_MaterializeFeatures", "tensorflow_model_analysis/extractors/legacy_meta_feature_extractor.py:_ExtractMetaFeature"]}
{"id": "C145", "title": "Legacy inputs: labels, weights and predictions come from the features of their keys", "statement": "The legacy input extractor gives each model the labels, example weights and predictions of the features its own keys name (None for a feature which is missing), under the name of the model if there are several; features are those of the example; everything else stays, and so do the incoming extracts.", "quantifier": "for all numbers of models, all keys with or without outputs, all examples and all extracts that came in", "why_tests_cant": "Tests use one or two models and fresh extracts; that incoming dictionaries change shows only when they are used again.", "anchors": ["tensorflow_model_analysis/extractors/legacy_input_extractor.py:_ParseExample"]}
{"id": "C146", "title": "Metrics of logarithms see the values the logarithms were taken of", "statement": "With the inverting preprocessor a metric sees, for labels and predictions of its model, exactly the numbers whose binary logarithms (plus one) were given, predictions kept between zero and the limit if there is one, in the same shapes; other extracts are unchanged; arrays of different shapes and missing labels or predictions are refused; any number of metrics may use such preprocessors side by side, each seeing the values inverted once.", "quantifier": "for all real values, shapes, models, limits, extracts and all numbers of computations", "why_tests_cant": "Tests check a handful of numbers to a tolerance and run one computation; changes made in place show only when extracts are used again.", "anchors": ["tensorflow_model_analysis/metrics/preprocessors/invert_logarithm_preprocessors.py:InvertBinaryLogarithmPreprocessor", "tensorflow_model_analysis/evaluators/metrics_plots_and_validations_evaluator.py:_PreprocessorDoFn"]}
{"id": "C147", "title": "A metric survives being turned into its config and back", "statement": "For every metric of the library and whatever arguments its constructor accepted, the dictionary of get_config is accepted by from_config of the same class, and the metric made from it has the same name and the same arguments; a metric made without a name has its default name.", "quantifier": "for all classes of metrics and all named arguments their constructors accept (values of any kind)", "why_tests_cant": "Tests serialize a few metrics with default arguments; each of a hundred constructors can misname, drop or fix an argument on its way through its base classes.", "anchors": ["tensorflow_model_analysis/metrics/metric_types.py:Metric", "tensorflow_model_analysis/metrics/confusion_matrix_metrics.py:ConfusionMatrixMetricBase", "tensorflow_model_analysis/metrics/confusion_matrix_metrics.py:MaxRecall", "tensorflow_model_analysis/metrics/confusion_matrix_metrics.py:BinaryAccuracy", "tensorflow_model_analysis/metrics/bleu.py:Bleu", "tensorflow_model_analysis/metrics/flip_metrics.py:BooleanFlipRates", "tensorflow_model_analysis/metrics/object_detection_metrics.py:COCOAveragePrecision"]}
{"id": "C148", "title": "Values become the tensors a model asks for", "statement": "to_tensorflow_tensors without specs turns every value of a nested dictionary into the tensor that holds it, under the same keys. With specs the result has exactly the keys of the specs, each tensor holding the value found at its place with the batch dimension and the order of its elements kept and the other dimensions as asked for; values are accepted exactly if every spec finds a value that fits. Specs read off one batch by infer_tensor_specs accept every batch with rows of the same shapes, unchanged. to_tensor_values gives back what went in.", "quantifier": "for all nested dictionaries of values and of specs, all shapes, batch sizes and contents", "why_tests_cant": "Tests convert a few small dictionaries; which shapes of values and specs fit each other is a question about all of them.", "anchors": ["tensorflow_model_analysis/utils/util.py:to_tensorflow_tensors", "tensorflow_model_analysis/utils/util.py:to_tensorflow_tensor", "tensorflow_model_analysis/utils/util.py:to_tensor_values", "tensorflow_model_analysis/utils/util.py:infer_tensor_specs"]}
{"id": "C149", "title": "Values by class are the values of that class", "statement": "If a metric is asked for several models, outputs and sub keys (classes, top k, k-th), the value reported under each key is the metric computed from the labels, predictions and weights of exactly that model, output and sub key, and nothing else is reported. The computations fail only if the metric itself fails for one of them.", "quantifier": "for all lists of models, outputs and sub keys, all metric names, class weights, aggregations and data", "why_tests_cant": "Tests compute most metrics without sub keys; where a sub key is passed on or dropped shows only in the value under each key, for data where the classes differ.", "anchors": ["tensorflow_model_analysis/metrics/calibration.py:_mean_label", "tensorflow_model_analysis/metrics/calibration.py:_mean_prediction", "tensorflow_model_analysis/metrics/calibration.py:_calibration", "tensorflow_model_analysis/metrics/cross_entropy_metrics.py:_binary_cross_entropy_computations", "tensorflow_model_analysis/metrics/mean_regression_error.py:_mean_absolute_error_computations", "tensorflow_model_analysis/metrics/exact_match.py:_exact_match", "tensorflow_model_analysis/metrics/squared_pearson_correlation.py:_squared_pearson_correlation", "tensorflow_model_analysis/metrics/tjur_discrimination.py:_coefficient_of_discrimination", "tensorflow_model_analysis/metrics/metric_util.py:merge_per_key_computations"]}
{"id": "C150", "title": "Computing a metric does not change what other metrics see", "statement": "Metrics computed together read the same examples, and so do the slices an example belongs to. Whatever metrics are computed together, in whatever order they are listed and examples get to slices, every metric of every slice is what it would be if it were computed alone from the examples as extracted.", "quantifier": "for all lists of metrics, all examples, all slices and all orders in which examples get to slices", "why_tests_cant": "Tests compute metrics on examples of their own whose predictions are probabilities; interference shows only for certain orders and predictions.", "anchors": ["tensorflow_model_analysis/metrics/cross_entropy_metrics.py:_CategoricalCrossEntropyCombiner", "tensorflow_model_analysis/metrics/metric_util.py:to_label_prediction_example_weight", "tensorflow_model_analysis/evaluators/metrics_plots_and_validations_evaluator.py:_ComputationsCombineFn", "tensorflow_model_analysis/slicer/slicer_lib.py:_FanoutSlicesDoFn"]}
{"id": "C151", "title": "Metrics are reported for every model, output and sub key asked for", "statement": "A metric that is asked for several models, outputs and sub keys is reported once for each of them, under the key that names them and computed from the values of that model and output, and under no other key. This holds for the metrics that take the lists themselves: example counts, samples, min label position, NDCG and query statistics. A request that names nothing stands for the unnamed model and output and no sub key; NDCG needs sub keys that say how many of the best to look at, given as sub keys or as a list of top k.", "quantifier": "for all lists of models, outputs, sub keys and top k, given or not", "why_tests_cant": "Tests ask for one model and output and a few sub keys; that no combination loses a key is a statement about all lists.", "anchors": ["tensorflow_model_analysis/metrics/example_count.py:example_count", "tensorflow_model_analysis/metrics/ndcg.py:_ndcg", "tensorflow_model_analysis/metrics/min_label_position.py:_min_label_position", "tensorflow_model_analysis/metrics/sample_metrics.py:_fixed_size_sample", "tensorflow_model_analysis/metrics/query_statistics.py:_query_statistics"]}
{"id": "C152", "title": "The legacy predict extractor adds to every example what the models predict for it", "statement": "Extracts that leave the legacy predict extractor are, for every example and in their order, the extracts that entered it with what the models fetched for that example: with an eval config features, labels and predictions, the latter by model if there are several, and the weights that the spec of the first model asks for; without one the features, predictions and labels of the legacy API. Whether a batch could be processed at once or was processed example by example after a failure makes no difference.", "quantifier": "for all models, batches, specs and extracts", "why_tests_cant": "There are no tests of the extractor any more; tests could only try some models and batches.", "anchors": ["tensorflow_model_analysis/extractors/legacy_predict_extractor.py:_TFMAPredictionDoFn", "tensorflow_model_analysis/extractors/legacy_predict_extractor.py:_wrap_as_batched_extract", "tensorflow_model_analysis/extractors/legacy_predict_extractor.py:_unwrap_batched_extract", "tensorflow_model_analysis/utils/model_util.py:BatchReducibleDoFnWithModels"]}
{"id": "C153", "title": "The outputs of every model and signature are stored, dense and under their names", "statement": "The extractor that calls the signatures of the loaded models stores every output of every signature called: under the name of the output, or of the signature if there is only one tensor, below the name of the model if there are several models. An output that is sparse or ragged is stored as a dense array with each value at its index and zero elsewhere, whose ragged dimensions are as long as their longest row. Exactly the models named by the model specs are asked. A batch is refused if and only if a signature a model must have is missing, an output cannot be made dense, or an output does not have one row per example.", "quantifier": "for all models, signatures, outputs, shapes and numbers of dimensions", "why_tests_cant": "Tests call a few toy models; the index arithmetic of padded outputs and the merging of outputs of several signatures cannot be settled by them.", "anchors": ["tensorflow_model_analysis/utils/model_util.py:_to_dense", "tensorflow_model_analysis/utils/model_util.py:_to_dense_outputs", "tensorflow_model_analysis/utils/model_util.py:_check_shape", "tensorflow_model_analysis/utils/model_util.py:ModelSignaturesDoFn"]}
{"id": "C154", "title": "The boxes that are matched are the named columns side by side", "statement": "For an image the object detection metrics match, row by row, the columns the metric names, side by side in that order: each found in the labels (for detections, in the predictions), else in the features, else in the transformed features. Of the rows of the detections as many are matched as the number of detections of the image says; the rest is padding. Columns with more than two dimensions or different numbers of rows, fewer than five columns of labels or six of predictions, and missing columns are refused; if missing columns are allowed, there is no box.", "quantifier": "for all extracts, columns, shapes and names", "why_tests_cant": "Tests stack two or three small columns; which source wins, every shape that is refused and every number of detections are outside what they can cover.", "anchors": ["tensorflow_model_analysis/metrics/preprocessors/utils/object_detection_format.py:stack_labels", "tensorflow_model_analysis/metrics/preprocessors/utils/object_detection_format.py:stack_predictions", "tensorflow_model_analysis/metrics/preprocessors/utils/object_detection_format.py:truncate_by_num_detections", "tensorflow_model_analysis/metrics/preprocessors/object_detection_preprocessors.py:BoundingBoxMatchPreprocessor.process"]}
{"id": "C155", "title": "Names generated from arguments tell arguments apart", "statement": "Metrics and preprocessors whose name is generated from their arguments get the same name for the same arguments, in whatever order they are given and whether arguments without a value are left out or None, and different names for different arguments, so that computations are merged exactly when their arguments agree. The object detection preprocessors have different names for different classes, overlap thresholds, area ranges, numbers of detections and class weights.", "quantifier": "for all names, arguments, orders and texts of values", "why_tests_cant": "Tests compare a handful of generated names; that no two of infinitely many argument sets collide cannot be tested.", "anchors": ["tensorflow_model_analysis/metrics/metric_util.py:generate_private_name_from_arguments", "tensorflow_model_analysis/metrics/preprocessors/object_detection_preprocessors.py:BoundingBoxMatchPreprocessor.__init__"]}
{"id": "C156", "title": "Names of slices tell slices apart", "statement": "The name shown for a slice (in the slicing view and in the slice key column of the analysis table) consists of its columns and the texts of its values in the order of the slice key; 'Overall' is the name of the slice of all examples and of no other. Two slices of the same name have the same columns and the same texts of values, unless columns contain a colon or columns or values contain the separator; if each column has values of one type the slices are then the same, the names in the column of an example are all different, and no two rows of the slicing view are named alike.", "quantifier": "for all slice keys, of any number of columns, and all texts", "why_tests_cant": "Tests stringify a few keys; that no two of infinitely many slices share a name, and how little of the separator is enough to confuse them, cannot be tested.", "anchors": ["tensorflow_model_analysis/slicer/slicer_lib.py:stringify_slice_key", "tensorflow_model_analysis/extractors/slice_key_extractor.py:ExtractSliceKeysFn.process", "tensorflow_model_analysis/view/util.py:find_all_slices"]}
{"id": "C157", "title": "Functions wrapped to be called by keywords behave as the functions", "statement": "A function wrapped by kwargs_only can only be called by keywords (a method: on an object, with nothing else by position). Such a call is accepted exactly if everything given is a parameter of the function and everything without a default is given; the function then receives the values given and the defaults of the others. Any other call raises a TypeError, and functions with *args or **kwargs are not wrapped at all.", "quantifier": "for all functions, with any number of parameters and defaults, and all calls", "why_tests_cant": "Tests call a few functions with two or three parameters; all signatures with all sets of keywords cannot be tested.", "anchors": ["tensorflow_model_analysis/utils/util.py:kwargs_only"]}
{"id": "C158", "title": "Arrays are written with their shape and every entry at its place", "statement": "A metric that is an array of 32 or 64 bit integers or floats is written with its type and shape, its values are in the field of that type and in no other, and the entry of every index is at the place its index has when the last index runs fastest; two such arrays with the same message are equal. Arrays of other types are written as the texts of their entries, and every other value of a metric as what it is: structured values as they say, bytes and texts as bytes, numbers as numbers, what is no number with its text. No metric value but an array with bytes that are not ASCII stops the writer.", "quantifier": "for all arrays of any number of dimensions and any sizes, and all values of metrics", "why_tests_cant": "Tests write a vector or two; that no entry of an array of any shape is misplaced cannot be tested.", "anchors": ["tensorflow_model_analysis/writers/metrics_plots_and_validations_writer.py:_convert_to_array_value", "tensorflow_model_analysis/writers/metrics_plots_and_validations_writer.py:convert_metric_value_to_proto"]}
{"id": "C159", "title": "What a result shows for all slices is what it shows for each slice", "statement": "For a result in which no slice occurs twice, get_metrics_for_all_slices and get_attributions_for_all_slices return exactly the slices of the result (get_slice_names), in its order, and for each of them what get_metrics_for_slice and get_attributions_for_slice return for it; they raise an error only if the accessor of a single slice raises it for some slice. get_metric_names names exactly the metrics some slice has under some output and sub key, in particular every metric any accessor shows.", "quantifier": "for all results, outputs, sub keys and metric names", "why_tests_cant": "Tests look at results of two or three slices; that the accessors agree for all results cannot be tested.", "anchors": ["tensorflow_model_analysis/view/view_types.py:EvalResult.get_metrics_for_all_slices", "tensorflow_model_analysis/view/view_types.py:EvalResult.get_attributions_for_all_slices", "tensorflow_model_analysis/view/view_types.py:EvalResult.get_metric_names", "tensorflow_model_analysis/view/view_types.py:EvalResult.get_slice_names"]}
{"id": "C160", "title": "The analysis table has a row per example with exactly the extracts asked for", "statement": "The AnalysisTableEvaluator outputs, under its key and nothing else, one row per example in order. If neither include nor exclude is given a row has exactly the values of the extracts that are not under 'input'. With a non-empty collection of keys to include it has exactly the values under these keys, with one to exclude exactly the values not under them, and neither raises. With dictionaries of filters it has exactly the values the filters select or do not select. Giving both, neither empty, raises ValueError.", "quantifier": "for all examples, keys, filters and evaluator keys", "why_tests_cant": "Tests filter one example by one or two keys; that no value outside the selection leaks into the table cannot be tested.", "anchors": ["tensorflow_model_analysis/evaluators/analysis_table_evaluator.py:_EvaluateExtracts", "tensorflow_model_analysis/evaluators/analysis_table_evaluator.py:AnalysisTableEvaluator", "tensorflow_model_analysis/extractors/extractor.py:Filter"]}
{"id": "C161", "title": "A worker loads a model once, and all that use it have the same one", "statement": "Whatever the order in which a runner sets up the DoFns and CombineFns of a process and finishes their bundles: one that was set up has under every model name the model its loader constructs, in the order of the loaders; a model is constructed at most once for all those that share its loader's handle, and only if one of them was set up; no load time is reported that was not measured, nor twice; and if each has one model then every load time is reported once, at the latest when the bundle of the DoFn that loaded it ends, and by a CombineFn as soon as it is set up.", "quantifier": "for all numbers of DoFns and models, shared or not, and all sequences of setups and finished bundles", "why_tests_cant": "Tests run one DoFn on a direct runner; that no interleaving loads twice or loses a load time cannot be tested.", "anchors": ["tensorflow_model_analysis/api/types.py:ModelLoader.load", "tensorflow_model_analysis/api/types.py:ModelLoader._construct_fn_with_load_time", "tensorflow_model_analysis/utils/model_util.py:DoFnWithModels.setup", "tensorflow_model_analysis/utils/model_util.py:DoFnWithModels.finish_bundle"]}
{"id": "C162", "title": "The counters of a pipeline tell how many metrics, slices and examples were computed", "statement": "For one fan out of examples to slices, in whatever order and bundles it runs: post_slice_num_instances is the number of pairs of an example and a slice it belongs to; num_distinct_slice_keys is the number of slices some example belongs to; slice_computed_<column>_<value> is the number of such slices with that column and value, if no column has an underscore. For an evaluation, metric_computed_<class>_v2_<type> is the number of metrics of the class in the specs that are logged under the type of model: the types of the models for specs without query key if the metrics of the models are included, model_agnostic otherwise (class names without underscore).", "quantifier": "for all examples, slice keys, specs, models and orders", "why_tests_cant": "Tests read the counters of one pipeline with one slice; that they are never off, or two things never share a counter, cannot be tested.", "anchors": ["tensorflow_model_analysis/evaluators/counter_util.py:IncrementMetricsSpecsCounters", "tensorflow_model_analysis/evaluators/counter_util.py:IncrementSliceSpecCounters", "tensorflow_model_analysis/slicer/slicer_lib.py:_FanoutSlicesDoFn.process", "tensorflow_model_analysis/slicer/slicer_lib.py:_TrackDistinctSliceKeys", "tensorflow_model_analysis/evaluators/metrics_plots_and_validations_evaluator.py:_get_model_types_for_logging"]}
{"id": "C163", "title": "Workers build the Keras metrics and losses that were asked for", "statement": "A combiner of Keras metrics that is set up on a worker has, for every output, exactly the metrics that were asked for followed by the losses, each in their order and with their class and config, provided that the classes that are not Keras' own can be imported from their modules, no two of them have the same name, none has the name of a class of Keras that is used as well, and no metric wraps a function. A function given as a metric becomes the class with its name in camel case, and fails if there is none.", "quantifier": "for all outputs, metrics, losses, classes, modules and configs", "why_tests_cant": "Tests deserialize one metric of Keras and one custom metric; that every combination of classes is rebuilt cannot be tested.", "anchors": ["tensorflow_model_analysis/metrics/tf_metric_wrapper.py:_custom_objects", "tensorflow_model_analysis/metrics/tf_metric_wrapper.py:_load_custom_objects", "tensorflow_model_analysis/metrics/tf_metric_wrapper.py:_deserialize_metrics", "tensorflow_model_analysis/metrics/tf_metric_wrapper.py:_deserialize_losses", "tensorflow_model_analysis/metrics/tf_metric_wrapper.py:_CompilableMetricsCombiner.setup"]}
{"id": "C164", "title": "The slicing view counts examples in a column that was computed", "statement": "The slicing view shows next to each slice the column that the caller asks for, otherwise the number of examples, weighted if and only if the first model that is not a baseline has a key of example weights. If the metrics specs were generated with the counts that are added by default, that column is one of the metrics that are computed, and it is computed with the weights in exactly that case.", "quantifier": "for all configs, lists of models with and without baselines, columns asked for and generated specs", "why_tests_cant": "Tests of the view use three fixed configs and never compare the column with the metrics that an evaluation with that config computes.", "anchors": ["tensorflow_model_analysis/view/util.py:get_slicing_config", "tensorflow_model_analysis/metrics/metric_specs.py:example_count_specs", "tensorflow_model_analysis/metrics/metric_specs.py:specs_from_metrics"]}
{"id": "C165", "title": "The view of attributions shows the metric that is asked for", "statement": "The view of attributions shows the slices that the slicing view would show, in their order, each with all its outputs and sub keys, and for each of these the attributions of the metric with the name that is asked for, or of its only metric if no name is given. It fails if a sub key has no such metric, and without a name if a sub key has no metric or several.", "quantifier": "for all results, slices, outputs, sub keys, metrics, and columns, specs and names asked for", "why_tests_cant": "Tests render one result with one output; that no output or sub key is dropped or shown with another metric cannot be tested.", "anchors": ["tensorflow_model_analysis/view/widget_view.py:render_slicing_attributions", "tensorflow_model_analysis/view/util.py:get_slicing_metrics"]}
{"id": "C166", "title": "The calibration plot of an output has the range of its own label", "statement": "A calibration plot uses the bounds it is given. A bound that is not given is that of the domain that the schema has for the label of the plot's model and output, and 0 or 1 if the label, its domain or that bound is not known. The plot is refused exactly if a bound is missing, there is a schema, and the model has labels by output while the plot has no output.", "quantifier": "for all configs, models, outputs, label keys, schemas and bounds", "why_tests_cant": "Tests of the plot use one model and one label; that each of several models and outputs gets the domain of its own label is not tested.", "anchors": ["tensorflow_model_analysis/metrics/calibration_plot.py:_find_label_domain", "tensorflow_model_analysis/metrics/calibration_plot.py:_calibration_plot", "tensorflow_model_analysis/utils/model_util.py:get_model_spec", "tensorflow_model_analysis/utils/model_util.py:get_label_key"]}
{"id": "C167", "title": "A metrics graph that is shared by threads gives each of them its own result", "statement": "The metric variables that a metrics graph returns for a list of examples are those of the examples, each counted once, from the initial values, whatever the graph computed before; they are the same in whatever order the calls of several threads reach the graph, and the same holds for the metric values of given variables, which come under the names of their own metrics. Examples that fail together but not one by one are computed one by one if the failure is one of those to be tried again. Metrics are added by callbacks exactly if all names differ, and then all metrics are updated.", "quantifier": "for all graphs, metric variables, lists of examples, failures, sequences of calls of any threads, and callbacks", "why_tests_cant": "The repository has no tests of this class; races between threads and batches that fail half way cannot be reproduced reliably.", "anchors": ["tensorflow_model_analysis/eval_metrics_graph/eval_metrics_graph.py:EvalMetricsGraph.metrics_reset_update_get_list", "tensorflow_model_analysis/eval_metrics_graph/eval_metrics_graph.py:EvalMetricsGraph.metrics_set_variables_and_get_values", "tensorflow_model_analysis/eval_metrics_graph/eval_metrics_graph.py:EvalMetricsGraph.register_add_metric_callbacks", "tensorflow_model_analysis/eval_metrics_graph/eval_metrics_graph.py:EvalMetricsGraph.register_additional_metric_ops", "tensorflow_model_analysis/utils/util.py:reraise_augmented"]}
{"id": "C168", "title": "Input specs become tensor representations under the same names", "statement": "Every input of a model gets, under its own name and in the order of the inputs, one tensor representation: sparse and ragged inputs by their column, all others with the sizes of all dimensions but the first. Nothing else is represented, and the conversion fails exactly if the rank or the size of a dimension other than the first of such an input is not known.", "quantifier": "for all dicts of input specs", "why_tests_cant": "Tests convert one dict of specs; that no mixture of kinds, ranks and unknown dimensions is mistaken is a statement about all of them.", "anchors": ["tensorflow_model_analysis/utils/model_util.py:input_specs_to_tensor_representations"]}
{"id": "C169", "title": "Validators see all alternatives and the last of them wins", "statement": "Each alternative is evaluated on the same extracts under its own key, every validator sees the evaluations of all alternatives, and the outcome has under each key the output of the last validator that has the key, and nothing else.", "quantifier": "for all extracts, alternatives and lists of validators", "why_tests_cant": "Tests run one alternative and one validator.", "anchors": ["tensorflow_model_analysis/api/verifier_lib.py:Validate"]}
{"id": "C170", "title": "Objects that are kept in sets and dicts obey the contract of equality and hashes", "statement": "Equality of sub keys, aggregation types, preprocessors and computations is an equivalence; equal objects have equal hashes, so that they can be kept in sets and dicts; `!=` is the negation of `==`; and two computations are equal exactly if they are of one kind and have classes of the same name, the same keys and preprocessors of the same names.", "quantifier": "for all sub keys, aggregation types, preprocessors and computations", "why_tests_cant": "Equivalences and hash contracts are statements about all pairs and triples of objects.", "anchors": ["tensorflow_model_analysis/metrics/metric_types.py:SubKey.__eq__", "tensorflow_model_analysis/metrics/metric_types.py:AggregationType.__eq__", "tensorflow_model_analysis/metrics/metric_types.py:Preprocessor.__eq__", "tensorflow_model_analysis/metrics/metric_types.py:Preprocessor.__hash__", "tensorflow_model_analysis/metrics/metric_types.py:MetricComputation.__eq__", "tensorflow_model_analysis/metrics/metric_types.py:DerivedMetricComputation.__eq__", "tensorflow_model_analysis/metrics/metric_types.py:CrossSliceMetricComputation.__eq__"]}
{"id": "C171", "title": "Slice specs given to the deprecated arguments mean the same after they were put into the config", "statement": "A SingleSliceSpec written with to_proto and read back with SingleSliceSpec(spec=...) is the same spec: it has the same columns and the same features with the same values, in whatever order the map of the message is read; a list of specs keeps its order and length; and a spec read from a config does not change any more when it is written and read again.", "quantifier": "for all specs the constructor accepts, all lists of them, all orders of the map, all ways to write and read numbers", "why_tests_cant": "The values are texts and numbers without bound, and whether they survive depends on how each number is written; examples show a few values.", "anchors": ["tensorflow_model_analysis/slicer/slicer_lib.py:SingleSliceSpec.to_proto", "tensorflow_model_analysis/slicer/slicer_lib.py:SingleSliceSpec.__init__", "tensorflow_model_analysis/slicer/slicer_lib.py:_to_type", "tensorflow_model_analysis/api/model_eval_lib.py:run_model_analysis", "tensorflow_model_analysis/writers/eval_config_writer.py:load_eval_run"]}
{"id": "C172", "title": "A preprocessing function named with a feature is applied to that feature", "statement": "A preprocessing function name `function@feature` of a model spec applies the function of the library to that feature: the function gets exactly the values of the feature, whatever signatures the model has; the result is available under the name of the function; names with more than one feature are refused; names without a feature never refer to the library; and several names give one output each.", "quantifier": "for all names, features, models, libraries of functions, and lists of names", "why_tests_cant": "Names, features and models are arbitrary, and what is lost when names collide depends on the whole list; tests have one function and one feature.", "anchors": ["tensorflow_model_analysis/utils/model_util.py:get_preprocessing_signature", "tensorflow_model_analysis/utils/model_util.py:ModelSignaturesDoFn._batch_reducible_process", "tensorflow_model_analysis/utils/model_util.py:get_inputs"]}
