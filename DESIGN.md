# Formal model of tensorflow/model-analysis: design

Source under study: `/repo` (python, read as text only). Model and proofs: `lean/` (Lean 4.33.0 + Mathlib).

## 1. Trusted base

* Lean's kernel. No axioms are added; every property theorem depends on at most `propext`,
  `Classical.choice`, `Quot.sound` (checked with `#print axioms`). No `sorry`, `native_decide`, `bv_decide`.
* The hand translation from python to Lean. Every definition cites file and lines; differences are listed in
  the comment of the definition and summarised in section 4.
* Not modelled: Apache Beam's runner (replaced by an explicit *schedule* over which theorems quantify), numpy and
  protobuf internals (replaced by the list/record operations they perform), IEEE rounding (see below),
  file formats, TensorFlow model execution.

## 2. Layout

* `Verif/Py/*`     python data types: insertion ordered dictionaries, float classes, exceptions.
* `Verif/Beam/*`   combine schedules (arbitrary bundling and merge trees).
* `Verif/Model/*`  the model, function by function, with citations.
* `Verif/Lemmas/*` helper lemmas.
* `Verif/Props/*`  specifications (written independently of the model's helpers), property theorems named after the
  property (`C01_...`), and non-vacuity `example`s.

## 3. Modelling conventions

* **Exceptions** are values: `Except Err α`.
* **Floats.** Arithmetic statements are about an arbitrary linearly ordered field or `ℚ`/`ℝ` (no rounding).
  Where NaN/infinity matter (validation) floats are `nan | -inf | finite ℚ | +inf` with python comparison rules.
* **Dictionaries** are association lists in insertion order with python's update-in-place semantics.
* **Distributed combine.** A `Sched` is a tree: leaves are bundles of inputs folded with `add_input` from a fresh
  accumulator, inner nodes are calls of `merge_accumulators` on a non-empty list. A theorem about every `Sched`
  covers every bundling and merge order, and statements are additionally invariant under permutation of the inputs.
* **Mutation** of python objects is modelled by returning the new value; aliasing is modelled only where a claim is
  about it (model comparison metrics, where merging an accumulator into itself matters).

## 4. Properties

Status and the exact theorem names of each property are in `MANIFEST.json`. What is modelled and how it is proved:

| id | modelled (file under `Verif/Model`) | proof (file under `Verif/Props`) |
|----|-------|-------|
| C01 | `generate_slices`, slice accessor, `SingleSliceSpec.__init__` (Slicer) | set equality with an inductive description of the keys; exact error cases (Slicer, SlicerSpec) |
| C02 | + `is_slice_applicable`, `_to_type` | list induction (Slicer) |
| C03 | `is_slice_applicable` | loop invariant; invariance under permutation of key and spec (Slicer) |
| C04 | slice key extraction, fan-out | counting lemma over whole collections (Slicer) |
| C05 | `FilterOutSlices` (SliceKeys) | decision logic; crash on cross-slices as witness |
| C06 | `get_slice_key_type` (SliceKeys) | case analysis on python objects; two-character texts as witness |
| C07 | slice key to protobuf and back, 32 bit rounding (SliceKeys) | round trip; rounding witness |
| C08, C09 | `include_filter`, `exclude_filter`, `merge_filters` (Filters) | structural induction over nested dictionaries |
| C10 | `copy_and_set_by_keys`, `get_by_keys` on a heap (Keys) | induction on the path, frame property |
| C11, C12 | `unique_key`, `compound_key` (Keys) | pigeonhole termination; parsing argument, collisions as witness |
| C13, C72 | `split_extracts`, `merge_extracts`, `_split_sparse_batch` (Extracts, SparseRagged); the TensorFlow operations on sparse and ragged tensors as documented, ragged values with one dimension | structural induction; sparse: sorting by row number; ragged: slices of row splits append (Lemmas/SparseRagged), nested lists as meaning; exceptions as witnesses (Extracts, ExtractsMerge) |
| C14 | `VarLenTensorValue` (VarLen) | round trip; all-empty rows as witness |
| C15 | thirteen combiners (Combiners, Attributions, Ndcg, ...) | homomorphism over all schedules and permutations |
| C16 | combiners starting with `next(iter(..))` (SelfMerge) | exact result incl. the double counting; witnesses; one-shot iterators `_partial` |
| C17, C53 | exact confusion matrix combiner, example ids (ConfusionMatrices) | schedule invariant |
| C18, C19 | calibration histogram, `rebin` (Histogram) | exact buckets, sums (Histogram, Rebin) |
| C20, C21, C54 | matrices from histograms and operators (ConfusionMatrices) | sums and alignment, witnesses (HistogramMatrices, MatricesOps) |
| C22 | multi-class matrix (MultiClass) | exact entries for ascending thresholds; descending as witness |
| C23 | squared Pearson correlation (Combiners) | weighted Cauchy–Schwarz (Pearson) |
| C24 | NDCG (Ndcg) | rearrangement inequality over any ordered field |
| C25, C26 | macro and weighted macro average, class weights (Aggregation) | weighted mean algebra; disagreement witnesses |
| C27, C28, C55–C61 | `to_label_prediction_example_weight` and helpers (Inputs) | list algebra; any `argpartition` meeting numpy's contract (Inputs*) |
| C29–C33 | stages of the evaluator (Evaluate) | list and dictionary lemmas (Evaluate, CrossSlice) |
| C34–C36, C62 | `validate_metrics` (Validation) | loop invariants against a declarative failure relation |
| C37–C39 | `CombineValidations`, missing slices (Validation) | schedule invariant (ValidationCombine) |
| C40–C42, C63 | jackknife, bootstrap, sample combiner (Confidence) | schedule theory per key, algebra over ℝ |
| C43, C44 | metric/plot/attribution keys and protobufs (MetricKeys) | round trip; `__lt__` never true |
| C45, C46, C65, C66 | `verify_eval_config`, defaults, model lists (Config) | decision logic, witnesses |
| C47, C48, C67, C69 | boxes (Boxes) | loop invariants, rational geometry (Boxes, BoxPairs) |
| C49 | combining evaluation dictionaries (EvaluationDicts) | schedule invariant |
| C50 | writer/loader slice filter (Loading) | decision logic; three witnesses |
| C51, C52 | exact match, calibration (Combiners) | schedule invariant; witnesses (MatchCalibration) |
| C64, C70 | preprocessor DoFn, tuple combiner, slicing + combine (Together) | side-by-side product of combiners over expanded schedules |
| C68 | set matching (SetMatch) | list induction |
| C71 | `get_by_keys` (Keys) | inductive reading relation (KeysGet) |
| C73 | `_ExampleCountCombiner` (Combiners) | schedule invariant against an inductive weight relation |
| C74 | pointwise difference and errors (SelfMerge) | ordered field algebra (Pointwise) |
| C75 | rates of confusion_matrix_metrics (ConfusionMetrics) on the matrices of C17 | cell algebra against weighted relative frequencies, executions from C17 (ConfusionMetrics) |
| C76 | composite scores, square roots over ℝ (ConfusionMetrics) | field algebra; PrevalenceThreshold false when TPR = FPR, witness (ConfusionMetrics) |
| C77 | `_find_max_under_constraint` and its six users (ConfusionMetrics) | best feasible value, induction over the thresholds (Auc) |
| C78 | AUC, ROC curve, three summation methods (ConfusionMetrics) | bilinear sum over neighbouring thresholds = sum over pairs, induction over thresholds and rows; executions from C17, default path from C54 (Auc) |
| C79 | `to_label_prediction_example_weight`: key lookup, weights, missing values (Inputs) | case analysis of the lookup over arbitrary trees (InputsKeys) |
| C80 | `_create_sub_keys`, `_aggregation_type` (MetricSpecs) | membership of the expansion against a list of what is asked for (MetricSpecs) |
| C81 | weight options, `keys_and_metrics_from_specs`, `metric_thresholds_from_metrics_specs` (MetricSpecs) | induction over the thresholds added, soundness and completeness (MetricSpecs) |
| C82 | `to_computations` with `_process_tfma_metrics_specs`, grouping by configuration, aggregation.py (MetricSpecs) | invariant of the grouping; inversion of the nested loops (SpecComputations) |
| C83 | as C82, `_macro_average_sub_keys`, private metrics | every sub key of an average is shared or private, hence provided (SpecComputations); what a macro average is taken over and with which weights, and exactly which specs are accepted (MacroSpecs) |
| C84 | as C82, `output_average` | inversion; all keys carry the aggregation type (SpecComputations) |
| C85 | as C82, identity of computations (Evaluate) | C29 applied to the computations of averages; weights of the loop (AverageCollisions) |
| C86 | `prepare_labels_and_predictions`, `_to_dense_tensor`, `_string_labels_to_class_ids` (Labels) | induction over the vocabulary and over the entries of the sparse label (Labels) |
| C87 | `AUC._metric_value` for the precision recall curve (ConfusionMetrics, PrAuc), reals with NaN and infinities | fundamental theorem of calculus for one step, induction over the thresholds (PrAuc) |
| C88 | choice of thresholds, defaults and sub keys of confusion matrix metrics (MatrixSetup); exact rationals for the quotients | decision logic, spacing by arithmetic (MatrixSetup) |
| C89 | keys and computations of binary confusion matrices and their histograms, names kept as their arguments (MatrixSetup), deduplication (Evaluate) | injectivity of the keys; C29 for the negation (MatrixSetup) |
| C90 | feature samplers (MatrixSetup) | from C53 and C29 (MatrixSetup) |
| C91 | derived, cross slice and diff stages in sequence (`Evaluate.addAllDerived`) | from C32 and C33, uniqueness of slice keys (CrossSliceDiff) |
| C92 | Keras metric combiner: collected rows, flush by count or bytes, padding, merge, compact, extract (Model/TfMetrics); a metric is an arbitrary function on batches, sizes in bytes arbitrary | invariant "collected rows plus weights account for all rows" over all executions; partial: that Keras metrics add up over batches is an assumption; disagreement witnesses |
| C93 | `tf_metric_computations` without the confusion matrix part: duplicates, sub keys, groups, declared keys, inputs (Model/TfMetrics, Props/TfMetricKeys) | fold invariants over the metrics; C92 for the values; disagreement witnesses |
| C94 | `convert_metrics_proto_to_dict`, `convert_attributions_proto_to_dict` (view/util.py), `EvalResult.get_metrics_for_slice`, `get_attributions_for_slice` (view_types.py) on the loaded protos (Model/EvalResults) | fold invariant: every place of the nested dictionaries holds the last metric stored for it; soundness and completeness of the accessors (EvalResults, LoadedAttributions); partial: metrics with the same name, output and sub key replace each other |
| C95 | `load_eval_results` with the rebinding of its argument (Model/EvalResults); loading of one path and model is arbitrary | induction over the paths (LoadedAttributions); partial with disagreement witness |
| C96 | `_flatten_proto`, `_to_dataframes`, `metrics_as_dataframes`, `plots_as_dataframes` (Model/DataFrames): messages are trees of fields, pandas aligns columns by row number; `auto_pivot` is C132 | invariant of the running row number and the columns over all fields of all records (DataFrames); partial with disagreement witnesses |
| C97 | `get_feature_values_for_model_spec_field` and the label, weight and materialized prediction extractors, storing of transformed features (Model/Extraction), read by the model of `to_label_prediction_example_weight` (Model/Inputs) | what is stored for a model as seen by a reader, composed with the lookups of the reader (Extraction); partial with disagreement witnesses |
| C98 | collection and storing of outputs in `ModelSignaturesDoFn` (Model/Extraction); saved models are parameters | as C97 (Extraction) |
| C99 | `process` of `BatchReducibleBatchedDoFnWithModels`, `batch_size`, `_check_shape`; `split_extracts` from Model/Extracts | both branches refined to the same rows (Inference), using C13_split |
| C100 | `_extract_unbatched_inputs`; pandas data frames as lists of records | refinement to rows (Inference) |
| C101 | `_multi_label_confusion_matrix_plot`, the combiner and `extract_output` (Model/MultiLabel), labels via `one_hot` of Model/Inputs | homomorphism of the nested dictionaries into pointwise sums, for all schedules (MultiLabel) |
| C102 | the combiner, the derived metrics and `DecodeImagePreprocessor` (Model/Segmentation); decoding of image files is a parameter | homomorphism into pointwise sums for all schedules, decision logic of the preprocessor (Segmentation) |
| C103 | `_confusion_matrix_plot`, `Matrices.to_proto` with `round` (Model/Plots), on top of Model/Histogram and Model/ConfusionMatrices | composition of C18, C19 and C54, rounding by bounds on floor and a pigeonhole argument (Plots) |
| C104 | `_extract_prediction_and_weight`, `_confusion_matrix_plot` (Model/Plots), on top of Model/ConfusionMatrices and Model/Inputs | composition of C17 and C27 (ScorePlots) |
| C105 | `_find_label_domain`, `_calibration_plot`, `_to_proto` (Model/Plots), on top of Model/Histogram | composition of C18 and C19 with a regrouping of sums (CalibrationPlot) |
| C106 | `validate_object_detection_arguments`, `COCOAveragePrecision`, `COCOMeanAveragePrecision`, `COCOAverageRecall`, `COCOMeanAverageRecall` (Model/Coco), on top of Model/Boxes and Model/ConfusionMatrices | composition of the matching (C61), the matrices (C17) and precision at recall, and induction over the NaN ignoring means (Coco) |
| C107 | identity of `BoundingBoxMatchPreprocessor` and of the matrices built with it (Model/CocoSetup), on top of Model/MatrixSetup and Model/Evaluate | keys of the computations by cases, first occurrence argument of C29 (CocoSetup) |
| C108 | `SetMatchPrecision`, `SetMatchRecall` from the examples to the value (Model/SetMatchMetrics), on top of Model/SetMatch, Model/Inputs, Model/MatrixSetup, Model/Histogram and Model/ConfusionMatrices | composition of C68, C27, C17, C18 and C54 over all schedules (SetMatchMetrics) |
| C109 | `find_input_name_in_features`, `filter_by_input_names`, `get_inputs`, `get_callable`, `get_input_specs` and their use in `ModelSignaturesDoFn` (Model/ModelInputs) | characterisation of the loop over the inputs by induction, decision logic of the callables (ModelInputs) |
| C110 | `CounterfactualPredictionsExtractor` with the predictions extractor behind it (Model/Counterfactual), models as functions of what Model/ModelInputs says they are called with; protobuf maps with the entry that reading adds | induction over the config, over the model specs and over the models with a config (Counterfactual) |
| C111 | `_BleuCombiner` with counters, reference columns and accumulators (Model/Bleu); tokenizer, lower-casing and the final score abstract | counting through suffixes against counters built position by position, argmin against the first nearest length, homomorphism into sums (Lemmas/Bleu, Bleu) |
| C112 | `RougeCombiner`, the keys of ROUGE and BLEU (Model/Rouge); the scorer abstract | homomorphism into sums; convexity; the filter of duplicate computations (Rouge) |
| C113 | `_FixedSizeSampleCombineFn` over TopCombineFn with heaps as sorted lists (Model/Sample) | invariant: the heap is the beginning of the sorted inputs; rank characterisation; bijection of permutations (Sample) |
| C114 | `find_all_slices`, `get_slicing_metrics`, `get_time_series`, `is_slice_applicable` on pairs (Model/Views) | induction over the results and runs, with C03; negation for all results with such a key (Views) |
| C115 | `convert_slice_plots_to_proto`, `convert_plots_proto_to_dict`, `get_plot_data_and_config`, `_replace_nan_with_none` (Model/PlotViews) | invariants of the writing loop (grouping by parent key) and of the loading loop (last entry of a place), injectivity of sub key texts (PlotViews) |
| C116 | `_metric_keys`, `_KerasCombiner`, `_KerasEvaluateCombiner`, `TFMetricsAccumulator`, `metric_computations_using_keras_saved_model`; the Keras model is a function from batches to weights of its metrics (Model/KerasModel) | decision logic for the keys; invariant of the schedule for accumulators (weights stored per output, buffered examples) (KerasModel) |
| C117 | `ExtractAndEvaluate`, `verify_evaluator` and the verification loop (Model/Pipeline) | the runs are computed from the loops and shown to be a permutation of one run per evaluator (Pipeline) |
| C118 | `default_extractors`, `default_evaluators` (which evaluators), `ExtractEvaluateAndWriteResults`, `WriteResults`, `_is_legacy_eval`, `InputsToExtracts`, `BatchedInputsToExtracts`, `extract_features` (which keys) (Model/Pipeline) | decision logic over the sets of model types; C117 for the assembled pipeline (Pipeline) |
| C119 | `specs_from_metrics`, `example_count_specs`, the three functions for default specs (Model/SpecBuild) | membership in the specs is characterized by induction over the outputs (SpecBuild) |
| C120 | `_process_tf_metrics_specs`, the selection of Keras metrics in `to_computations` (Model/TfSpecs), on top of Model/TfMetrics | invariant of the grouping loops; both directions of the characterization; C93 for the keys (TfSpecs) |
| C121 | `metric_instance`, the part of `to_computations` that makes the objects, the deserialization functions (Model/MetricConfigs) | invariant of the dictionaries of classes over configs and specs, refinement to metric_instance (MetricConfigs) |
| C122 | `config_from_metric`, `_is_supported_tf_metric`, `_remove_unsupported_tf_settings` with its table, the serialization functions (Model/MetricConfigs) | case analysis over the table of settings; C121_one for the way back (ConfigFromMetric) |
| C123 | `ExtractSqlSliceKeyFn.process`, the unbatching of its keys, `ExtractSliceKeysFn.process` (Model/SqlSlices) | refinement to the rows of the batch; round trip C14 for the keys, C04 for each example (SqlSlices) |
| C124 | `StandardMetricInputsPreprocessor` and the functions that make one, `_PreprocessorDoFn.process`, `to_standard_metric_inputs` (Model/SharedInputs) | refinement: merged filters select the union (C09), include_filter keeps what is selected (C08) |
| C125 | `_GroupByQueryKey`, `to_scalar`, the fan-out of merged records, `len(element.prediction)`, the loop over specs by query key (Model/Queries); formatting of values is a parameter | refinement to a grouping by printed text, for every schedule of the runner (PerKey); merged slice keys via C14; documents by an invariant of the merge loop; statistics by C15 |
| C126 | names, glob patterns, sharded files, the two readers with their fallback, config writer and loader including the old pickled file (Model/ResultFiles); encodings of protocol buffers are assumed to be read back | files of an output as a permutation of the globbed listing; names not prefixes of one another; slices by C50 up to permutation |
| C127 | selection of scores, elements of the combiner of C15, division by the example count of C73, conversion to values in files (Model/AttributionMetrics) | argpartition as any partition; selection as an equivalence with a relational spec; sums by C15 over schedules and C73 for the denominator |
| C128 | keys, private names of counts, reading of predictions through to_label_prediction_example_weight, counts and rates of a whole evaluation (Model/Comparisons, Model/SelfMerge); str of numbers is any injective function | example relation to pairs of predictions; invariants over the dictionaries of counts and rates; C16 for the sums |
| C129 | in place setting, getting with fall back, key paths, names of models and outputs over nested dictionaries reached by one path only (Model/StandardExtracts) | induction on paths and on nested dictionaries |
| C130 | choice of the method, samples tagged with their number, the transform over the slices of a sample, records of all samples (Model/ConfidencePipeline); the combinations and extraction of C40–C42, C63; the transform of C30–C33 | decomposition of the records of a slice or pair over the samples, refinement to the values computed directly from the elements of the slices |
| C131 | default_eval_shared_model, get_model_type, _default_eval_config, default writers, load_eval_result, run_model_analysis, the convenience functions and analyze_raw_data (Model/TopLevel) on top of Model/Config, Model/ResultFiles and Model/EvalResults; the pipeline and the conversion of records are parameters | refinement to declarative specifications, composition with C126_run and C46; witnesses by computation |
| C132 | auto_pivot, _auto_pivot, _stringify_slices, _collapse_column_names (Model/AutoPivot) on top of Model/DataFrames; pandas pivot, nunique and droplevel as documented; the order of rows and columns of the result and conversions of column types are not modelled | refinement: the pivoted frame against its rows, stable sorting, injectivity of joined texts; composition with C96_numbers |
| C133 | thresholds, keys and computations of metric and plot, Matrices._apply_binary_op_*, to_proto (Model/MultiClassMetric) on top of the combiner (Model/MultiClass, C22) and the filtering of computations (Model/Evaluate, C29); floats are rationals, class ids are unbounded | refinement of the dictionaries to entries; invariant of the accumulators over all executions; evaluation of several tasks through C29_first_occurrences |
| C134 | extract_features, _drop_unsupported_columns_and_fetch_raw_data_column, record_batch_to_tensor_values (Model/Features); columns are names, types and rows; what TFX-BSL makes of representations given by users is a parameter, its two default conversions are written out | induction over the columns giving the decision per name; the round trip of variable length rows (C14) |
| C135 | _create_inference_input_tuple, _parse_prediction_log_to_tensor_value, insert_predictions_into_extracts, RunInference up to the rebatching, is_valid_config_for_bulk_inference, TfxBslInferenceWrapper, TfxBslPredictionsExtractor, get_eval_shared_model, default signatures (Model/BulkInference) over split_extracts (Model/Extracts); models are arbitrary functions and RunInferencePerModel is assumed to return keys with their own logs | induction over dictionaries and batches; pointwise relation between examples and results |
| C136 | _wrap_confusion_matrix_metric with class weights, sub key, choice of thresholds, assignment of counters by class (Model/KerasMatrices) on top of binary_confusion_matrices (Model/MatrixSetup) and the combiners of histograms and matrices; Keras is an arbitrary function of the counters, its own counting is the specification | matrices of every bundling from C17, C18 and C54; evenly spaced thresholds keep a distance of 1e-7 from the grid of the histogram |
| C137 | ConfusionMatrixAtThresholds._metric_computations and ConfusionMatrixMetricBase._metric_computations (Model/KerasMatrices, Model/MatrixSetup); the value is any function of the matrices | as C136 |
| C138 | TFLitePredictionDoFn._batch_reducible_process with name stripping, defaults, reshaping, resizing, quantization, outputs and storage of one or several models (Model/TFLite); the interpreter is its shapes plus an arbitrary function on tensors | induction over inputs, examples, outputs and models; the predictions are characterized by an iff with a row-wise specification |
| C139 | _TFJSPredictionDoFn._batch_reducible_process for one model: feature lookup, rank test, reshaping with an unknown first dimension, concatenation, output names, batch size test (Model/TFLite); the binary is an arbitrary function on tensors | the rows of each input add up to a multiple of the batch size, which the test of the output length forces to be one per example |
| C140 | the five metrics from boxes over preprocessor and confusion matrices, counted or from a histogram, to the value; checks of the recall (Model/DetectionMetrics, SetMatchMetrics.matricesWith) | composition of C67 (pairs from boxes), the refinement of the matrices by sums over items (Lemmas/MatrixItems), C54 (histograms), C88 (thresholds) and C77 (best under a constraint) |
| C141 | the three combiners with their accumulators, acceptance of features, weights and labels, and output dictionaries (Model/QueryMetrics) | homomorphism into sums (Lemmas/Combine) for all executions; C24 for the value of a query |
| C142 | grouping of the metrics, the check of their keys, the recursion over arrays, mean and standard deviation, the number of samples, grouping by slice in any order (Model/LegacyBootstrap) | mutual induction over nested arrays; dictionary induction for the grouping; permutation invariance of the summary |
| C143 | the computations of a plot with their keys, object detection arguments, filtering and separation of computations, the run of derived computations in order (Model/PlotSetup, on top of Model/MatrixSetup and Model/Evaluate) | invariant of the loop over derived computations; separation and removal of duplicates from C29 |
| C144 | the three extract functions with their dictionaries, values as sparse tensors or rows (Model/LegacyFeatures) | folds over the dictionaries with invariants on columns; injectivity of compound keys from C12 |
| C145 | parse of the example as a parameter, loop over models, adding to existing or new dictionaries, and what is left in the incoming extracts (Model/LegacyInputs) | induction over the models with names being distinct |
| C146 | inversion, clipping, reading by model, in-place setting of labels and predictions, and the copies the evaluator makes (Model/InvertLog) | laws of the real logarithm; induction over the computations |
| C147 | all constructors of metrics with their parameters, defaults, checks and the arguments they pass to their base classes, Metric.__init__, get_config and from_config (Model/MetricCtors; generated from the source and read against it) | symbolic execution of a chain of constructors proved sound for all arguments; a decidable condition on the chain implying the round trip; the condition checked for each class by the kernel |
| C148 | to_tensorflow_tensor(s), to_tensor_value(s), infer_tensor_specs, numpy reshape with at most one open dimension (Model/TensorSpecs) | induction over nested dictionaries by lookup; reshape characterised by the product of the dimensions |
| C149 | the functions that create the computations of thirteen metrics, the arguments their combiners pass to to_label_prediction_example_weight, merge_per_key_computations, evaluation of computations and derived values in order (Model/PerClass) | induction over the keys asked for, with the private keys kept apart |
| C150 | a store of examples shared by combiners and slices, add_input of the tuple combiner in order, the in place division (Model/InPlace) | invariant over the schedule: every example is as extracted or divided once; division is idempotent, and the identity where predictions add up to one |
| C151 | the functions that create the computations, as keys with the model and output looked at (Model/KeysAsked) | membership in nested loops; induction over the list of top k |
| C152 | the loops over models and fetched values, weights, wrapping and unwrapping of batches, and processing one by one (Model/LegacyPredict) | the loop of the first model appends, those of the others update in place: both characterised by induction; columns of wrapped rows by induction over rows |
| C153 | making tensors dense, shape check, the loops over models and signatures, the layout of what is stored, and setup (Model/ModelOutputs) | ragged tensors by induction over the row splits, sparse ones by injectivity of the row-major position; the loops by induction with a relation between signatures and answers |
| C154 | stacking of columns, number of detections, and the first part of the preprocessor up to the matching of C47 (Model/StackBoxes) | equivalences for the search, the loop over names and the stacking of matrices, by induction over names and matrices |
| C155 | `generate_private_name_from_arguments` and the name of the bounding box preprocessor (Model/PrivateNames) | parsing: the first equals sign ends the argument name, the text ends where a comma, an argument name and an equals sign follow; induction over the arguments |
| C156 | `stringify_slice_key`, the column of names of `ExtractSliceKeysFn.process` (Model/SliceNames) and `find_all_slices` (Model/Views) | parsing: the first colon ends the columns, the first separator ends a part; induction over the parts, injectivity carried over to the column and the view |
| C157 | `kwargs_only` with its wrapper, and the binding of keywords by Python (Model/KwargsOnly) | invariant of the loop over the parameters, refinement to a declarative binding |
| C158 | `_convert_to_array_value`, `convert_metric_value_to_proto` and the messages (Model/ArrayValues) | induction over the shape: the index at a position of the flattened array; injectivity follows |
| C159 | `get_attributions_for_all_slices` and `get_slice_names` (Model/AllSlices), the other accessors (Model/EvalResults) | both loops are instances of one; induction over the records |
| C160 | `_EvaluateExtracts` and `Filter` (Model/AnalysisTable) over `include_filter` and `exclude_filter` (Model/Filters) | keys become flat filters, whose selection is computed; C08 per row; induction over the rows |
| C161 | `ModelLoader`, `DoFnWithModels` and `CombineFnWithModels` (Model/ModelLoading); Beam's shared handles are assumed to keep what was constructed | invariant of the worker over all runs; load times up to permutation |
| C162 | counter_util.py, the counters of the fan out and the types logged by the evaluator (Model/Counters) over the evaluations by query key (Model/Queries) | counters are lists of increments; double counting; names are split at the first underscore; an additive sum over the groups of specs |
| C163 | `_custom_objects`, `_load_custom_objects`, `_deserialize_metrics`, `_deserialize_losses`, `setup` (Model/WorkerMetrics); how Keras looks up a class is assumed | invariant of the loop that loads the classes; induction over outputs and metrics |
| C164 | `get_slicing_config` (Model/SlicingColumn) together with the specs of Model/SpecBuild | the loop over the models against a split of the list; composition with C119 |
| C165 | `render_slicing_attributions` (Model/AttributionViews) on top of `get_slicing_metrics` (Model/Views) | induction over slices, outputs and sub keys; the loops that set keys against a relation between nested dictionaries |
| C166 | `get_model_spec`, `get_label_key`, `_find_label_domain` and the bounds of `_calibration_plot` (Model/LabelRange, Model/Plots) | loops over models and features against splits of the lists; case analysis |
| C167 | `EvalMetricsGraph` (Model/MetricsGraph): reset, update, retry, set, get, registration; `reraise_augmented`; the graph and the session are functions on the values of the variables, each call is atomic because it holds the lock | induction over examples, calls and registered metrics |
| C168 | `input_specs_to_tensor_representations` (Model/SpecRepresentations); type specs by kind and shape | equivalence with an inductive relation between specs and representations, by induction over dimensions and inputs |
| C169 | `Validate` (Model/SpecRepresentations); alternatives and validators are arbitrary functions, names of stages are left out | induction over alternatives and validators |
| C170 | `__eq__`, `__ne__` and `__hash__` of keys, preprocessors and computations (Model/Identity); a hash is an arbitrary function of what equality compares; objects that compute are compared by identity | case analysis over kinds, induction over members; sorting of keys by C44 |
| C171 | `to_proto`, reading of the message and the lists of old specs (Model/SpecProtos) on top of the specs of C01; the map of the message in any order | induction over features and specs; the typed values of a built spec are fixed points of the reading |
| C172 | `get_preprocessing_signature` and its use for one name (Model/PreprocessingNames), on top of the calls of C109 and the loop of C153 | induction over the characters of the name and over the list of functions |

## 5. Disagreements between code and documentation found while modelling

Each has a theorem in the model that exhibits it (name in parentheses) unless marked *not proved*.

Slicing
* A minimum slice size makes the stage raise IndexError as soon as a cross-slice result exists (`C05_cross_slice_crash`).
* A text of two characters is accepted as an element of a slice key (`C06_two_char_text_accepted`).
* Float slice values are stored in single precision: they change and may collide (`C07_float_not_preserved`, `C07_float_collision`).
* Loading by slice: comparisons of slices are loaded as if they were the overall slice, a slice with a float outside single
  precision is not found by its own spec, and specs passed as an iterator are used up after one record (`C50_*`).
* Beam groups by the encoded key, python compares by value: the theorem on slices (C70) needs `UniformKeys` (1 and 1.0 as values of
  one feature would give two groups).

Nested dictionaries and extracts
* The empty filter means 'keep everything' for inclusion and for exclusion (`C08_empty_filter_not_complementary`).
* A stored empty dictionary is reported as not found (`C10_empty_dict_not_found`).
* Different lists of names may give the same compound key (`C12_collisions`).
* Splitting and merging loses a batch whose values are all None, turns equal length rows into a dense array and loses empty rows
  (`C13_*`); variable length tensors with only empty rows cannot be rebuilt (`C14_all_empty_lost`).
* A matrix valued key that is missing from some extract makes `merge_extracts` raise (`C72_missing_matrix_fails`).

Metrics
* Combiners that start merging with `next(iter(accumulators))` count the first accumulator twice when they are given a list
  (`C16_*_doubled`, `C16_*_depends_on_bundling`).
* A repeated threshold doubles the counts of the confusion matrix (`C17_duplicate_threshold_doubles`).
* Confusion matrices from histograms lose weight for thresholds above the range and differ from exact counting at 0 and 1
  (`C20_above_range_loses_weight`, `C20_single_above_range`, `C54_threshold_zero`, `C54_threshold_one`, `C54_single_negative`).
* Element-wise operators on matrices use swapped indices when thresholds interleave (`C21_not_correct`).
* Multi-class matrices compare the last class's prediction once no class is predicted, visible for thresholds that are not
  ascending (`C22_descending_wrong`).
* `macro_average` with its default class weights raises (`C25_none_raises`); `weighted_macro_average` gives classes that are not
  listed their label weight and ignores weights for top k (`C26_*`).
* `one_hot` accepts the label n and wraps negative labels (`C28_accepts_n`, `C28_wraps`).
* Exact match compares only the common prefix (`C51_prefix_counts_as_match`).
* Mean prediction includes the weight of unlabelled examples; top k uses the last entry only (`C52_*`).
* Class weights are looked up by flattened position, hence wrong for batches (`C59_batch_by_position`).
* An example without label and prediction gets an empty weight (`C60_empty_weight`).
* Set matching treats the example weight 0 as not given, an empty score key raises (`C68_zero_weight`, `C68_no_scores`).
* `num_detections` 0 keeps every padding row (`C69_zero_rows`).
* The symmetric difference of opposite predictions is infinite (`C74_symdiff_opposite`).
* `PrevalenceThreshold` raises ZeroDivisionError instead of reporting NaN when the true and false positive rates agree, e.g. when
  everything is predicted positive (`C76_prevalence_threshold_raises`).
* The documentation of `AUC` says that endpoint thresholds are added to given `thresholds`; they are not, so a perfect classifier
  can have area 0 and `majoring` is no upper bound (`C78_no_endpoints`). Descending thresholds give a negative area
  (`C78_descending_negative`). Data with a single class gives 0, not NaN (`C78_one_class`).

Evaluator
* Aggregation options without an aggregation type silently replace the binarization options (`C80_lost`).
* Thresholds of a weighted macro average are checked under a key that is never computed, as the average is stored as a macro average
  (`C82_weighted_missing`); a macro and a weighted macro average of one metric share their key, so one is dropped (`C85_lost`).
* Output weights cannot be combined with micro averaging (`C84_micro_fails`).
* The label weights of different sets of classes share their key, so later weighted averages use the weights of other classes
  (`C85_label_weights_lost`, `C85_plain_mean`, `C85_nan`).
* The id of a derived computation contains the name of the *type* of its function, so different functions share it (`C30_merged`).
* Computations that list equal keys in a different order are different (`C29_key_order`); plot and metric keys with equal
  fields are one dictionary key (`C31_kinds_conflated`).
* A slice may be compared with itself, and two specs asking for the same pair give two records (`C33_same_slice`, `C33_pair_twice`).
* The jackknife reports the mean of the leave-one-out values, not of the pseudo values (`C41_not_pseudo_mean`).

Validation and configuration
* A missing metric fails slices its per-slice threshold does not concern; a metric that is not a number raises (`C34_*`).
* Cross-slicing specs are counted as the overall spec and always listed as missing (`C38_cross_counted_as_overall`,
  `C39_cross_always_missing`).
* A second spec with an equal failing threshold is not mentioned in the details (`C62_second_spec_not_mentioned`).
* `CombineValidations.add_input(None)` erases what has been combined (`C37_none_erases`).
* Keys with `SubKey(None, None, None)` or more than one aggregation flag do not survive serialization (`C43_not_all`).
* No metric key is ever less than another, so sorting keys is not canonical (`C44_never_less`).
* The check for duplicate model names never fires (`C45_duplicate_names`); filling in defaults twice differs from once for a
  single named model with a baseline (`C46_not_idempotent`); metrics specs may keep a model name that no longer exists
  (`C65_removed_baseline`, `C65_unnamed_candidate`).
- metric_util.py 943–968: a sparse label with a text that is not in the vocabulary gets class id -1, which numpy takes for the last
  class; the conversion of unknown labels to zeros is only tried afterwards and never applies (`C86_unknown_marks_last`).
- metric_util.py 971–981: a sparse label with two dimensional indices sets whole rows of the dense label (`C86_matrix_row`).
- confusion_matrix_metrics.py 598–612: for the precision recall curve with the methods minoring and majoring the precision is NaN at
  thresholds above all predictions, so the last step of the curve is dropped.  Majoring is then no upper bound: it is 0 for a
  perfect classifier for which interpolation gives 1 (`C87_end_lost`, `C87_majoring_zero`).  The default thresholds always end
  above all predictions.
- Thresholds given together with `num_thresholds` 200 or 10000 are dropped without a message if there are two less of them
  (`C88_dropped`; meant for thresholds written by keras, but only their count is compared).  An integer threshold such as
  `thresholds=1` raises TypeError (`C88_integer`).  A sub key combined from a specification and a metric is not validated
  (`C88_unchecked`): class 3 next to rank 1, or the top 0, are evaluated but cannot be loaded again.
- The matrices and histograms shared between metrics are keyed without the aggregation type, and computations with the same key
  are computed once (`C89_lost`): with `binarize: {top_k_list: 2}` and `aggregate: {micro_average, top_k_list: 2}` in one
  configuration, the values of one of them are computed from the inputs of the other.
- The derived computations of feature samplers have no keys, so that all of them are taken for the same computation
  (`C90_only_one`): only the first sampler of a configuration appears in the results, for one model, output and class.  A slice
  without a false positive (negative) makes the whole evaluation fail (`C90_sampler`: `np.concatenate` of an empty list).
- A Keras loss with unequal example weights depends on the batches (`C92_loss_depends_on_batches`): the mean loss of a batch is
  weighted by the weights of the batch.  Padding goes up to the largest width in the batch, so metrics that average over the values
  of an example depend on the batches too (`C92_padding_depends_on_batches`); without padding, rows of different widths fail or not
  depending on the batches (`C92_ragged_depends_on_batches`).
- tf_metric_wrapper.py 666–673: the reported key of an aggregated Keras metric lacks the aggregation type that the computation
  declares (`C93_aggregated_undeclared`), so thresholds for it find no value, and it is mixed up with the metric that is not aggregated.
- tf_metric_wrapper.py 527–531: the check whether all the metrics select the top k themselves looks at no loss, so a loss alone is given
  all the predictions although it is reported for the top k (`C93_loss_inputs`).
- view/util.py 548–628: the nested dictionary shown to users has no place for the example weighting of a metric nor for the average
  of a diff metric, so the weighted and the unweighted variant of a metric (`C94_weighted_variant_lost`) and the diffs of two averages
  (`C94_average_diff_lost`) replace each other.  Without a model name a slice of several models without diff metrics is dropped
  (`C94_several_models_dropped`); a slice that only holds an error message is dropped if a model name is given (`C94_error_slice_dropped`).
- view_types.py 324, 377: `class_id=0` is taken as no class id for attributions and plots (`C94_class_zero_attributions`).
- view/util.py 685–760: attributions of a cross slice key are shown as those of the overall slice (`C94_cross_slice_attributions`).
- model_eval_lib.py 313–327: the loop over the models rebinds the argument `model_name`, so from the second path on only the last model
  of the first path is loaded, although all models are documented (`C95_later_models_missing`).
- api/dataframe.py 139–147: the elements of a repeated primitive field are enumerated themselves, so any array metric makes
  `metrics_as_dataframes` raise TypeError (`C96_arrays_fail`), although `MetricsDataFrames` has a field for arrays.  The entries of multi class
  confusion matrices at several thresholds get the same row numbers (`C96_multi_class_fails`), and the threshold is only in the row of
  the first entry (`C96_multi_class_threshold`).  One value of an unknown type makes all conversions fail (`C96_unknown_type_fails`).
  Cross slice metrics are shown as overall metrics (`C96_cross_slice_as_overall`).
- utils/model_util.py 1086–1088 and 319–321: if only one of several models has transformed features, these are stored without the name of
  the model and used for all models (`C97_other_models_features`).  metric_util.py 608–611: the label key of a model is first looked up among
  the names of models (`C97_label_of_other_model`).  Weights configured for one of several models make weighted metrics of the others
  fail (`C97_weight_of_one_model_fails`); a prediction key cannot be used with output names (`C97_prediction_key_with_output`);
  a single model may not be named like a transformed feature (`C97_named_like_feature`).
- utils/model_util.py 1083–1085: a model with one output stores it without its name, and metrics that name the output fail
  (`C98_single_output_fails`).
- extractors/unbatch_extractor.py 81–100: empty lists are dropped instead of refused (`C100_empty_list_dropped`).
- metrics/multi_label_confusion_matrix_plot.py 214–219: several class numbers are refused (`C101_several_sparse`) unless there are as many as classes, in which case they are
  taken for one value per class (`C101_all_labels`); NaN predictions create entries with empty cells (`C101_nan`).
- metrics/preprocessors/image_preprocessors.py 156–157: example weights replace the labels and predictions, so that segmentation metrics fail on
  every weighted example (`C102_weights_fail`).
- metrics/binary_confusion_matrices.py 180: F1 is NaN rather than 0 where there are false but no true positives (`C103_f1`); in a confusion matrix plot a prediction counts as
  above a threshold strictly between 0 and 1 only from 0.0001 above it on, but already at equality for the thresholds 0 and 1 (`C103_plot`).
- metrics/score_distribution_plot.py 138–144: accuracy, F1 and the rates are not reset and contradict the cells (`C104_stale_accuracy`); scores outside [0, 1]
  fail with an error about labels (`C104_out_of_range`).
- metrics/metric_util.py 81–84 and metrics/preprocessors/utils/bounding_box.py 110: an area range of one number, and a negative class, are accepted when an object detection metric is made and refused for every image (`C106_accepted_fails`).
- metrics/calibration_plot.py 161–167: for numbers of buckets that do not divide 10000 predictions near a boundary are added to the bucket below (`C105_three_buckets`).
- metrics/object_detection_metrics.py: a class without any ground truth lowers mean average precision as if its precision were 0, whereas mean average recall leaves it
  out (`C106_absent_class`); class weights and example weights are accepted but have no influence on the result (`C106_weights_ignored`).
- metrics/preprocessors/object_detection_preprocessors.py 92–100: labels_to_stack, predictions_to_stack, num_detections_key and allow_missing_key are not part of the
  name, hence two metrics that read their boxes from different columns share one result (`C107_shared`); metrics/preprocessors/set_match_preprocessors.py 105–108: likewise for set match metrics that differ only
  in the keys of classes, scores or weights (`C107_set_match_shared`).
- metrics/set_match_confusion_matrix_metrics.py 121–123: with top_k the single threshold -inf is evaluated on a histogram whose lowest occupied bucket counts as not
  predicted: recall is 1 if nothing is predicted (`C108_nothing_predicted`), and it drops when all labels are found and a score equals 1 (`C108_all_found`).
- metrics/preprocessors: the predictions yielded for boxes and sets are arrays, but the metrics look them up under the name of the model, hence object detection and set
  match metrics fail in every evaluation of several models (`C79_plain_prediction`, `C108_named`).
- utils/model_util.py 633–706: a model with inputs "x" and "x_input" gets the feature "x" twice (`C109_one_feature_twice`); a feature named like the string input that is meant
  for serialized examples is passed instead of the examples (`C109_feature_for_examples`).
- extractors/counterfactual_predictions_extractor.py 234–237: the entries of a config are applied one after the other, so a swap of two features is none (`C110_no_swap`); a missing
  source silently empties the destination (`C110_missing_source`).
- extractors/counterfactual_predictions_extractor.py 229–240: only the serialized examples are changed; a Keras model that takes its inputs from the features gets the original
  ones and the counterfactual predictions are the ordinary ones (`C110_inputs_by_name`).
- extractors/counterfactual_predictions_extractor.py 97 and 193–205: a single model loses its name, so a named model spec is filtered out and every batch fails
  (`C110_single_named_fails`); with an unnamed one the predictions stand under "" and no metric can find them (`C110_single_unusable`).
- metrics/bleu.py 87–101: of two equally near reference lengths the one of the first reference is taken (`C111_reference_tie`; sacrebleu takes the shorter one); the docstring's "-1 if
  ref_lens is empty" is not what the code does.
- metrics/bleu.py 159–177, 305–307: an example whose references are all empty adds the length of its untokenized hypotheses but none of their n-grams, so the statistics depend on how
  sentences are distributed over examples (`C111_grouping_fails`, `C111_untokenized`).
- metrics/bleu.py 227, 313–315: a sentence whose references are all None raises StopIteration (`C111_missing_reference`); hypotheses beyond the references are dropped silently
  (`C111_surplus`).
- metrics/rouge.py 163 and metrics/bleu.py 436: the keys lack the model and output name, so that the computations of further models and outputs count as duplicates and are dropped
  (`C112_models_fails`).
- metrics/rouge.py 130–150: the reported F-measure is not the harmonic mean of the reported precision and recall (`C112_fmeasure_not_harmonic`).
- Results that contain a cross slice with the overall slice as baseline cannot be viewed: every slicing view, time series of such a run raises IndexError (C114).
- Plots with other than the two default names (multi-class and multi-label confusion matrices, named plots) hide all other plots of the same model, output and sub key, or are hidden, because loading ignores names and weightings; plots of cross slices are loaded as plots of the overall slice (C115).
- A Keras model with several outputs and no overall metric cannot be evaluated with its own metrics; metrics of an output are attributed to an earlier output whose name is a prefix; metrics of a single output named like a prefix of them lose this prefix, and two metrics may share a key so that one is lost (C116).
- ExtractAndEvaluate, which is public, silently skips evaluators whose run_after matches no extractor; only ExtractEvaluateAndWriteResults verifies them (C117).
- disabled_outputs has no effect on metrics, plots and attributions unless all three are listed, and then the run raises ValueError; the documented value eval_config.json is not recognized (the code looks for eval_config); custom_predict_extractor is ignored without models or with materialized predictions; without an eval_config the default extractors refuse all examples (C118).
- specs_from_metrics with metrics by output drops query_key and output_weights without notice; specs_from_metrics({}, unweighted_metrics=[m]) and specs_from_metrics([m], unweighted_metrics={}) return no specs at all (C119).
- The values of aggregated Keras metrics are reported without the aggregation, so in default_multi_class_classification_specs the micro averaged binary cross entropy replaces the categorical cross entropy: both are called loss (C120).
- to_computations tells Keras losses from metrics by the module: a loss class of the user, which metric_instance accepts, is refused with a ValueError. Two classes of the same name from different modules share one class: the first for TFMA metrics, the last for Keras metrics (C121).
- config_from_metric keeps the Keras module for objects with settings TFMA does not support (for example AUC(multi_label=True)), but metric_instance and to_computations look at the class name first and make TFMA's metric of it. _UNSUPPORTED_TF_SETTINGS misspells MeanSquaredLogarithmicError, and its cross entropy names are TFMA's, not Keras'. Unregistered TFMA metrics are serialized without their module (C122).
- config.proto says that `SELECT STRUCT(gender) FROM example.gender` equals feature_keys=[gender]. It does not: a spec with only slice_keys_sql is also read as the overall slice, so every example is in the overall slice as well; and with two columns the keys differ in their order (C123). The SQL extractor writes the transformed features over the features of the batch in place, and where several models transform a feature statements see that of the first model only while slicing by features sees the values of all.
- A StandardMetricInputsPreprocessor with an empty filter and no default inputs yields two inputs for each example: `process` yields `{}`, goes on, and yields all the extracts; a metric that counts inputs counts each example twice, and so do all metrics that share the standard inputs. Merging starts again after an empty filter, so filters before it are lost if one follows (C124). CombinedFeaturePreprocessor with model_names filters raw features by the names of the models too, so none of the raw features asked for are kept.
- `total_documents` of QueryStatistics is `len(element.prediction)`: with several models or outputs this is the number of models (outputs), and with predictions of different lengths, which are merged to a VarLenTensorValue, it is 3, the number of fields of that tuple (C125). If every metrics spec has a query_key then the metrics saved with the models are not computed, although include_default_metrics is on. Values are grouped by their printed text, so 7 and "7" are one query, and an example without the feature joins those whose text is empty; but a feature that is present and empty raises ValueError.
- Writing results over those of an earlier run with another number of shards leaves the old files in place, and loading returns the metrics of both runs (C126). The Parquet column "slice_key", meant for filtering, holds only the values of the slice key and not the names of its features: gender=a and country=a look the same, and comparisons of slices look like the overall slice. `EvalConfigWriter` accepts output_file_format "" but then writes "eval_config.", which `load_eval_result` does not look for. `_check_version` is given the whole dictionary for old (pickled) configurations and not its version, so it always passes.
- For attributions, `k` and `top_k` rank the attribution scores of a feature themselves, not the predictions: for each feature another class may be taken (C127). The writer of attributions handles values it does not know with `e.message`, which exceptions of Python 3 do not have. Scores with two dimensions are refused because their size differs from their length. A feature that an example lacks counts as zero in the mean.
- Flip rates, SymmetricPredictionDifference and ModelCosineSimilarity put the sub key (class, k, top k) into the metric key but compute the same value for all sub keys; flip rates and the difference look at the first class only (C128). With a total weight of zero, flip rates and SymmetricPredictionDifference raise ZeroDivisionError (Python floats) where other metrics report NaN, and so fail the whole evaluation if one slice has no weight.
- get_model_and_output_names finds no predictions that are dictionaries below an output, and with one model takes the output for a model; get_labels and the like return the values of all models when asked for a model that is missing (C129).
- A pair of slices that two cross slicing specs ask for loses its confidence intervals (C130).
- single_model_analysis loads every model as an eval model, multiple_model_analysis with an output path can mix runs, and analyze_raw_data with two models without a baseline returns no metrics (C131).
- auto_pivot fails for the plots of several models and for slices with the same text (C132).
- A MultiClassConfusionMatrixPlot next to a MultiClassConfusionMatrixAtThresholds metric (or two of them with different thresholds) shows the thresholds of whichever is configured first (C133).
- `extract_features` copies only the outer dictionary and then calls `features.update`: if extracts hold features beside the record batch, the features of the incoming element are changed too, which Beam forbids (C134). The branch for "features that are missing some values" is only reached if all rows are missing, as a missing row has a missing length that counts as a second size (C134_columns).
- AUC(from_logits=True) is accepted, but the wrapper feeds logits to the thresholds as if they were probabilities; AUC, SpecificityAtSensitivity and SensitivityAtSpecificity round predictions down to 1/10000, Precision and Recall do not (C136)
- a missing feature of a quantized TFLite model raises ValueError although the code logs that a default is set, since the empty text is used for all types but float32 and int64; quantizing truncates instead of rounding (C138)
- features whose rows have different sizes can be spread over other examples by the reshape of the TFJS extractor, and the test of the number of results does not notice if the total fits (C139)
- utils/util.py 943–946: whether values are merged as sparse tensors is decided by the first example alone (`target[0]` instead of
  `t`). If an example lacks a sparse value, merging fails when the first example has it and gives an array of objects when the
  first example lacks it (`C13_sparse_missing`).
- utils/util.py 1092–1093: keep_batch_dim adds the dimension of the batch to arrays only. After a failed batch the rows of sparse
  features are given to the model without it and the sizes of the features differ, so the retry fails (`C99_sparse_fails`).
- utils/util.py 947–952: entries of a sparse tensor come back in row-major order (`C13_sparse_sorted`); a tensor with one ragged
  dimension comes back as a variable length tensor or an array (`C13_one_ragged_dimension`).
- with the default thresholds (or any number of thresholds) the precision at recall of object detection counts ground truths which were not found as found at the lowest threshold of -1e-7: a model that detects nothing has precision 1 at every recall (C140). The documentation says that num_thresholds defaults to 1000; it is 10000
- the legacy minimum label position divides a sum of positions that is not weighted by the sum of the weights, against its documentation (weighted average, optimal value one): with weight 2 a perfect ranking has the value 0.5; without labelled queries nothing is reported although the documentation says zero (C141)
- legacy_poisson_bootstrap.py reports NaN instead of the unsampled value if a number is NaN in all samples, sampled metrics without interval for a slice that is in one sample, and nothing for a slice that is in no sample (C142)
- object_detection_confusion_matrix_plot.py: plots of the same name, model and output for different classes (or with other thresholds or preprocessors) share the key of their matrices, so the second plot shows the data of the first (C143)
- legacy_feature_extractor.py: a feature of the serialized example with no kind set is given the values of the feature before it, and values called "labels" and "__labels" share one column (C144)
- legacy_input_extractor.py: with several models the dictionaries of labels, weights and predictions of the incoming extracts are changed in place, and existing features are replaced although the documentation says merged (C145)
- invert_logarithm_preprocessors.py: the default name leaves out model and limit, so that two metrics of the same key with different limits count as one computation; process changes its argument (C146)
- bleu.py, flip_metrics.py, object_detection_metrics.py, confusion_matrix_metrics.py: the constructors of Bleu, BooleanFlipRates, COCOAveragePrecision, MaxRecall, ObjectDetectionMaxRecall and BinaryAccuracy keep arguments under names they do not take, so that their configs cannot be read back; ConfusionMatrixMetricBase takes preprocessors and ignores them (C147)
- utils/util.py:to_tensorflow_tensors reshapes dense values to the shape of the spec with -1 for each open dimension, so that numpy refuses specs with two open dimensions besides the batch (images of any size) and empty batches where one is open, even if the value fits as it is; an empty dictionary of specs is taken for none (C148)
- metrics/exact_match.py, squared_pearson_correlation.py and tjur_discrimination.py create keys with a sub key but do not pass it to to_label_prediction_example_weight, so that the value of all classes is reported under each class; relative_coefficient_of_discrimination drops the sub key from its key as well (C149)
- metrics/cross_entropy_metrics.py:_CategoricalCrossEntropyCombiner divides with `prediction /= np.sum(prediction)`, which changes the array of the example: other metrics and slices see the quotients if the predictions do not add up to one (C150)
- metrics/query_statistics.py takes `model_name` and `output_name`, which `Metric.computations` never passes: with several models the query statistics fail (C151)
- extractors/legacy_predict_extractor.py matches the predictions of several models by position although each carries the example it belongs to, and with an eval config keeps nothing of a batch but the serialized examples (C152)
- utils/model_util.py stores the outputs of several signatures of a model in one dictionary, so outputs of the same name overwrite each other, and stores the outputs of the only model that answers without its name even if several models were asked (C153)
- metrics/preprocessors/utils/object_detection_format.py `truncate_by_num_detections` leaves all rows when the number of detections is zero, so an image without detections has its padding matched as detections (C154)
- get_slicing_config names weighted_example_count whenever the first candidate model has an example_weight_key, also if no such metric is computed, and ignores example_weight_keys (C164).
- render_slicing_attributions without metric_name mixes the attributions of different metrics if every sub key has one metric (C165_mixed_fails).
- get_label_key reads label_keys[output_name] without testing for the key: for an output without a label the config is changed (C166_config_fails).
- reraise_augmented turns every exception without a text as its first argument into a RuntimeError; the exceptions of TensorFlow have no arguments, so that metrics_reset_update_get_list never tries the examples one by one after InvalidArgumentError or ResourceExhaustedError (C167_not_retried_fails); register_additional_metric_ops keeps the metrics before a conflict without updating them (C167_in_vain_fails).
- Preprocessor.__hash__ calls a method `_preprocessor_id` that does not exist (C170_preprocessor_hash_fails); MetricComputation, DerivedMetricComputation and CrossSliceMetricComputation define `__eq__` but inherit `__ne__` of tuples, so that `a == b` and `a != b` can both be true or both be false (C170_equal_and_unequal_fails, C170_neither_fails).
- SingleSliceSpec.to_proto loses specs: a feature value such as 1e22 has the text `1e+22`, which `_to_type` does not read as a float since it has no point, so the slice is compared as a text (C171_exponent_fails); two values of one feature become one (C171_two_values_fails).
- Outputs of `function@feature` are stored under `function` alone, so one function for two features keeps only the last (C172_same_function_fails); a feature that does not exist is not reported and the function gets the serialized examples (C172_missing_feature_fails); `function@feature` of a function of the model ignores the feature (C172_model_function_fails).

## 6. Not modelled

* The Keras metrics themselves (their update and result functions are arbitrary in C92, C93 and C116), model inference (what a model
  computes is an arbitrary function), TensorFlow sessions (C167), sacrebleu, rouge_score and NLTK (their results are
  arbitrary functions where wrappers are modelled).
* File input and output and wire formats (files are lists of records), logging, the code of the notebook renderers and widgets, the
  scripts that build the documentation, and the modules that only import names.
* `evaluators/testing`, `utils/example_keras_model.py` and all test code.
* `utils/model_util.py:model_construct_fn`.
* Reference counts and sizes of objects in `utils/size_estimator.py`: the size of a batch is an arbitrary number, so the theorems
  hold for every way of batching.
* Rounding of floats is not modelled anywhere except for the 32 bit slice values of C07/C50.
