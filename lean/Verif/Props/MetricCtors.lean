import Verif.Lemmas.MetricRoundTrip

/-!
# C147: a metric is made again from its config

Metrics are written into the evaluation config as the dictionaries their `get_config` returns, and made again with `from_config`
whenever the config is used. What is expected: the metric made again is the same metric, with the same name and the same arguments.
-/

namespace TFMA
namespace MetricCtors

variable {V : Type}

/-- The metrics whose configs do not fit their constructors. -/
def misfits : List String := ["Bleu", "BinaryAccuracy", "MaxRecall", "BooleanFlipRates", "ObjectDetectionMaxRecall", "COCOAveragePrecision"]

/-- Two metric objects of a class agree. -/
def Same (m m' : Metric V) : Prop := m'.name = m.name ∧ ∀ k, Dict.get? m'.kwargs k = Dict.get? m.kwargs k

/-- The config of a metric of that class is refused by the class. -/
def Refused (c : Class V) (m : Metric V) : Prop := ∃ cfg, c.getConfig m = .ok cfg ∧ c.fromConfig cfg = .error .typeError

/-- The parameters of these classes are passed on as they should be. -/
private def allGood (l : List (Class V)) : Bool := l.all fun c => misfits.contains c.name || good c

private theorem forall_append {P : Class V → Prop} {l l' : List (Class V)} (h : ∀ c ∈ l, P c) (h' : ∀ c ∈ l', P c) : ∀ c ∈ l ++ l', P c :=
  fun c hc => (List.mem_append.1 hc).elim (h c) (h' c)

private theorem of_allGood {l : List (Class V)} (h : allGood l = true) : ∀ c ∈ l, c.name ∈ misfits ∨ good c = true := by
  intro c hm
  have h := List.all_eq_true.1 h c hm
  simpa only [Bool.or_eq_true, List.contains_iff_mem] using h

set_option maxHeartbeats 4000000 in
private theorem g_classes_attributions : ∀ c ∈ (classes_attributions : List (Class V)), c.name ∈ misfits ∨ good c = true := of_allGood (by rfl)

set_option maxHeartbeats 4000000 in
private theorem g_classes_bleu : ∀ c ∈ (classes_bleu : List (Class V)), c.name ∈ misfits ∨ good c = true := of_allGood (by rfl)

set_option maxHeartbeats 4000000 in
private theorem g_classes_calibration : ∀ c ∈ (classes_calibration : List (Class V)), c.name ∈ misfits ∨ good c = true := of_allGood (by rfl)

set_option maxHeartbeats 4000000 in
private theorem g_classes_calibration_plot : ∀ c ∈ (classes_calibration_plot : List (Class V)), c.name ∈ misfits ∨ good c = true := of_allGood (by rfl)

set_option maxHeartbeats 4000000 in
private theorem g_classes_confusion_matrix_metrics : ∀ c ∈ (classes_confusion_matrix_metrics : List (Class V)), c.name ∈ misfits ∨ good c = true := of_allGood (by rfl)

set_option maxHeartbeats 4000000 in
private theorem g_classes_confusion_matrix_plot : ∀ c ∈ (classes_confusion_matrix_plot : List (Class V)), c.name ∈ misfits ∨ good c = true := of_allGood (by rfl)

set_option maxHeartbeats 4000000 in
private theorem g_classes_cross_entropy_metrics : ∀ c ∈ (classes_cross_entropy_metrics : List (Class V)), c.name ∈ misfits ∨ good c = true := of_allGood (by rfl)

set_option maxHeartbeats 4000000 in
private theorem g_classes_exact_match : ∀ c ∈ (classes_exact_match : List (Class V)), c.name ∈ misfits ∨ good c = true := of_allGood (by rfl)

set_option maxHeartbeats 4000000 in
private theorem g_classes_example_count : ∀ c ∈ (classes_example_count : List (Class V)), c.name ∈ misfits ∨ good c = true := of_allGood (by rfl)

set_option maxHeartbeats 4000000 in
private theorem g_classes_flip_metrics : ∀ c ∈ (classes_flip_metrics : List (Class V)), c.name ∈ misfits ∨ good c = true := of_allGood (by rfl)

set_option maxHeartbeats 4000000 in
private theorem g_classes_mean_regression_error : ∀ c ∈ (classes_mean_regression_error : List (Class V)), c.name ∈ misfits ∨ good c = true := of_allGood (by rfl)

set_option maxHeartbeats 4000000 in
private theorem g_classes_min_label_position : ∀ c ∈ (classes_min_label_position : List (Class V)), c.name ∈ misfits ∨ good c = true := of_allGood (by rfl)

set_option maxHeartbeats 4000000 in
private theorem g_classes_model_cosine_similarity : ∀ c ∈ (classes_model_cosine_similarity : List (Class V)), c.name ∈ misfits ∨ good c = true := of_allGood (by rfl)

set_option maxHeartbeats 4000000 in
private theorem g_classes_multi_class_confusion_matrix_metrics : ∀ c ∈ (classes_multi_class_confusion_matrix_metrics : List (Class V)), c.name ∈ misfits ∨ good c = true := of_allGood (by rfl)

set_option maxHeartbeats 4000000 in
private theorem g_classes_multi_class_confusion_matrix_plot : ∀ c ∈ (classes_multi_class_confusion_matrix_plot : List (Class V)), c.name ∈ misfits ∨ good c = true := of_allGood (by rfl)

set_option maxHeartbeats 4000000 in
private theorem g_classes_multi_label_confusion_matrix_plot : ∀ c ∈ (classes_multi_label_confusion_matrix_plot : List (Class V)), c.name ∈ misfits ∨ good c = true := of_allGood (by rfl)

set_option maxHeartbeats 4000000 in
private theorem g_classes_ndcg : ∀ c ∈ (classes_ndcg : List (Class V)), c.name ∈ misfits ∨ good c = true := of_allGood (by rfl)

set_option maxHeartbeats 4000000 in
private theorem g_classes_object_detection_confusion_matrix_metrics : ∀ c ∈ (classes_object_detection_confusion_matrix_metrics : List (Class V)), c.name ∈ misfits ∨ good c = true := of_allGood (by rfl)

set_option maxHeartbeats 4000000 in
private theorem g_classes_object_detection_confusion_matrix_plot : ∀ c ∈ (classes_object_detection_confusion_matrix_plot : List (Class V)), c.name ∈ misfits ∨ good c = true := of_allGood (by rfl)

set_option maxHeartbeats 4000000 in
private theorem g_classes_object_detection_metrics : ∀ c ∈ (classes_object_detection_metrics : List (Class V)), c.name ∈ misfits ∨ good c = true := of_allGood (by rfl)

set_option maxHeartbeats 4000000 in
private theorem g_classes_prediction_difference_metrics : ∀ c ∈ (classes_prediction_difference_metrics : List (Class V)), c.name ∈ misfits ∨ good c = true := of_allGood (by rfl)

set_option maxHeartbeats 4000000 in
private theorem g_classes_query_statistics : ∀ c ∈ (classes_query_statistics : List (Class V)), c.name ∈ misfits ∨ good c = true := of_allGood (by rfl)

set_option maxHeartbeats 4000000 in
private theorem g_classes_rouge : ∀ c ∈ (classes_rouge : List (Class V)), c.name ∈ misfits ∨ good c = true := of_allGood (by rfl)

set_option maxHeartbeats 4000000 in
private theorem g_classes_sample_metrics : ∀ c ∈ (classes_sample_metrics : List (Class V)), c.name ∈ misfits ∨ good c = true := of_allGood (by rfl)

set_option maxHeartbeats 4000000 in
private theorem g_classes_score_distribution_plot : ∀ c ∈ (classes_score_distribution_plot : List (Class V)), c.name ∈ misfits ∨ good c = true := of_allGood (by rfl)

set_option maxHeartbeats 4000000 in
private theorem g_classes_semantic_segmentation_confusion_matrix_metrics : ∀ c ∈ (classes_semantic_segmentation_confusion_matrix_metrics : List (Class V)), c.name ∈ misfits ∨ good c = true := of_allGood (by rfl)

set_option maxHeartbeats 4000000 in
private theorem g_classes_set_match_confusion_matrix_metrics : ∀ c ∈ (classes_set_match_confusion_matrix_metrics : List (Class V)), c.name ∈ misfits ∨ good c = true := of_allGood (by rfl)

set_option maxHeartbeats 4000000 in
private theorem g_classes_squared_pearson_correlation : ∀ c ∈ (classes_squared_pearson_correlation : List (Class V)), c.name ∈ misfits ∨ good c = true := of_allGood (by rfl)

set_option maxHeartbeats 4000000 in
private theorem g_classes_stats : ∀ c ∈ (classes_stats : List (Class V)), c.name ∈ misfits ∨ good c = true := of_allGood (by rfl)

set_option maxHeartbeats 4000000 in
private theorem g_classes_tjur_discrimination : ∀ c ∈ (classes_tjur_discrimination : List (Class V)), c.name ∈ misfits ∨ good c = true := of_allGood (by rfl)

set_option maxHeartbeats 4000000 in
private theorem g_classes_weighted_example_count : ∀ c ∈ (classes_weighted_example_count : List (Class V)), c.name ∈ misfits ∨ good c = true := of_allGood (by rfl)

theorem classes_good : ∀ c ∈ (classes : List (Class V)), c.name ∈ misfits ∨ good c = true :=
  (forall_append (forall_append (forall_append (forall_append (forall_append (forall_append (forall_append (forall_append (forall_append
    (forall_append (forall_append (forall_append (forall_append (forall_append (forall_append (forall_append (forall_append (forall_append
    (forall_append (forall_append (forall_append (forall_append (forall_append (forall_append (forall_append (forall_append (forall_append
    (forall_append (forall_append (forall_append g_classes_attributions g_classes_bleu) g_classes_calibration) g_classes_calibration_plot)
    g_classes_confusion_matrix_metrics) g_classes_confusion_matrix_plot) g_classes_cross_entropy_metrics) g_classes_exact_match)
    g_classes_example_count) g_classes_flip_metrics) g_classes_mean_regression_error) g_classes_min_label_position)
    g_classes_model_cosine_similarity) g_classes_multi_class_confusion_matrix_metrics) g_classes_multi_class_confusion_matrix_plot)
    g_classes_multi_label_confusion_matrix_plot) g_classes_ndcg) g_classes_object_detection_confusion_matrix_metrics)
    g_classes_object_detection_confusion_matrix_plot) g_classes_object_detection_metrics) g_classes_prediction_difference_metrics)
    g_classes_query_statistics) g_classes_rouge) g_classes_sample_metrics) g_classes_score_distribution_plot)
    g_classes_semantic_segmentation_confusion_matrix_metrics) g_classes_set_match_confusion_matrix_metrics)
    g_classes_squared_pearson_correlation) g_classes_stats) g_classes_tjur_discrimination) g_classes_weighted_example_count)

/-- **C147.** Each metric of the library, but for six, whatever the arguments it accepted: its config is accepted by its class and makes
the same metric. `fn` is not an argument of any of the constructors (it is dropped from configs), and `preprocessors` are lost already by
the constructors (`C147_preprocessors_fails`). What is missing are the six (below). -/
theorem C147_round_trip_partial (c : Class V) (hc : c ∈ classes) (hn : c.name ∉ misfits) (kw : Dict String (Val V))
    (hfn : Dict.get? kw "fn" = none) (hpre : Dict.get? kw "preprocessors" = none) (m : Metric V) (h : c.make kw = .ok m) :
    ∃ cfg m', c.getConfig m = .ok cfg ∧ c.fromConfig cfg = .ok m' ∧ Same m m' := by
  obtain ⟨cfg, m', h1, h2, h3, h4⟩ := round_trip c ((classes_good c hc).resolve_left hn) kw hfn hpre m h
  exact ⟨cfg, m', h1, h2, h3, h4⟩

/-! ### some of the classes -/

/-- The class `Precision`. -/
def kPrecision : Class V :=
  { name := "Precision", ctors := [cPrecision, cConfusionMatrixMetric, cConfusionMatrixMetricBase],
    dflt := some "precision", drops := droppable }

private theorem mem_kPrecision : (kPrecision : Class V) ∈ classes := by
  have h : (kPrecision : Class V) ∈ classes_confusion_matrix_metrics := by
    unfold classes_confusion_matrix_metrics kPrecision
    repeat (first | exact .head _ | apply List.Mem.tail)
  exact (List.mem_append_left _ (List.mem_append_left _ (List.mem_append_left _ (List.mem_append_left _ (List.mem_append_left _ (List.mem_append_left _ (List.mem_append_left _ (List.mem_append_left _ (List.mem_append_left _ (List.mem_append_left _ (List.mem_append_left _ (List.mem_append_left _ (List.mem_append_left _ (List.mem_append_left _ (List.mem_append_left _ (List.mem_append_left _ (List.mem_append_left _ (List.mem_append_left _ (List.mem_append_left _ (List.mem_append_left _ (List.mem_append_left _ (List.mem_append_left _ (List.mem_append_left _ (List.mem_append_left _ (List.mem_append_left _ (List.mem_append_left _ (List.mem_append_right _ h)))))))))))))))))))))))))))

/-- The class `Mean`. -/
def kMean : Class V :=
  { name := "Mean", ctors := [cMean] }

private theorem mem_kMean : (kMean : Class V) ∈ classes := by
  have h : (kMean : Class V) ∈ classes_stats := by
    unfold classes_stats kMean
    repeat (first | exact .head _ | apply List.Mem.tail)
  exact (List.mem_append_left _ (List.mem_append_left _ (List.mem_append_right _ h)))

/-- The class `Bleu`. -/
def kBleu : Class V :=
  { name := "Bleu", ctors := [cBleu] }

private theorem mem_kBleu : (kBleu : Class V) ∈ classes := by
  have h : (kBleu : Class V) ∈ classes_bleu := by
    unfold classes_bleu kBleu
    repeat (first | exact .head _ | apply List.Mem.tail)
  exact (List.mem_append_left _ (List.mem_append_left _ (List.mem_append_left _ (List.mem_append_left _ (List.mem_append_left _ (List.mem_append_left _ (List.mem_append_left _ (List.mem_append_left _ (List.mem_append_left _ (List.mem_append_left _ (List.mem_append_left _ (List.mem_append_left _ (List.mem_append_left _ (List.mem_append_left _ (List.mem_append_left _ (List.mem_append_left _ (List.mem_append_left _ (List.mem_append_left _ (List.mem_append_left _ (List.mem_append_left _ (List.mem_append_left _ (List.mem_append_left _ (List.mem_append_left _ (List.mem_append_left _ (List.mem_append_left _ (List.mem_append_left _ (List.mem_append_left _ (List.mem_append_left _ (List.mem_append_left _ (List.mem_append_right _ h))))))))))))))))))))))))))))))

/-- The class `BinaryAccuracy`. -/
def kBinaryAccuracy : Class V :=
  { name := "BinaryAccuracy", ctors := [cBinaryAccuracy, cConfusionMatrixMetric, cConfusionMatrixMetricBase],
    dflt := some "binary_accuracy", drops := droppable }

private theorem mem_kBinaryAccuracy : (kBinaryAccuracy : Class V) ∈ classes := by
  have h : (kBinaryAccuracy : Class V) ∈ classes_confusion_matrix_metrics := by
    unfold classes_confusion_matrix_metrics kBinaryAccuracy
    repeat (first | exact .head _ | apply List.Mem.tail)
  exact (List.mem_append_left _ (List.mem_append_left _ (List.mem_append_left _ (List.mem_append_left _ (List.mem_append_left _ (List.mem_append_left _ (List.mem_append_left _ (List.mem_append_left _ (List.mem_append_left _ (List.mem_append_left _ (List.mem_append_left _ (List.mem_append_left _ (List.mem_append_left _ (List.mem_append_left _ (List.mem_append_left _ (List.mem_append_left _ (List.mem_append_left _ (List.mem_append_left _ (List.mem_append_left _ (List.mem_append_left _ (List.mem_append_left _ (List.mem_append_left _ (List.mem_append_left _ (List.mem_append_left _ (List.mem_append_left _ (List.mem_append_left _ (List.mem_append_right _ h)))))))))))))))))))))))))))

/-- The class `MaxRecall`. -/
def kMaxRecall : Class V :=
  { name := "MaxRecall", ctors := [cMaxRecall, cRecall, cConfusionMatrixMetric, cConfusionMatrixMetricBase],
    dflt := some "max_recall", drops := droppable }

private theorem mem_kMaxRecall : (kMaxRecall : Class V) ∈ classes := by
  have h : (kMaxRecall : Class V) ∈ classes_confusion_matrix_metrics := by
    unfold classes_confusion_matrix_metrics kMaxRecall
    repeat (first | exact .head _ | apply List.Mem.tail)
  exact (List.mem_append_left _ (List.mem_append_left _ (List.mem_append_left _ (List.mem_append_left _ (List.mem_append_left _ (List.mem_append_left _ (List.mem_append_left _ (List.mem_append_left _ (List.mem_append_left _ (List.mem_append_left _ (List.mem_append_left _ (List.mem_append_left _ (List.mem_append_left _ (List.mem_append_left _ (List.mem_append_left _ (List.mem_append_left _ (List.mem_append_left _ (List.mem_append_left _ (List.mem_append_left _ (List.mem_append_left _ (List.mem_append_left _ (List.mem_append_left _ (List.mem_append_left _ (List.mem_append_left _ (List.mem_append_left _ (List.mem_append_left _ (List.mem_append_right _ h)))))))))))))))))))))))))))

/-- The class `BooleanFlipRates`. -/
def kBooleanFlipRates : Class V :=
  { name := "BooleanFlipRates", ctors := [cBooleanFlipRates] }

private theorem mem_kBooleanFlipRates : (kBooleanFlipRates : Class V) ∈ classes := by
  have h : (kBooleanFlipRates : Class V) ∈ classes_flip_metrics := by
    unfold classes_flip_metrics kBooleanFlipRates
    repeat (first | exact .head _ | apply List.Mem.tail)
  exact (List.mem_append_left _ (List.mem_append_left _ (List.mem_append_left _ (List.mem_append_left _ (List.mem_append_left _ (List.mem_append_left _ (List.mem_append_left _ (List.mem_append_left _ (List.mem_append_left _ (List.mem_append_left _ (List.mem_append_left _ (List.mem_append_left _ (List.mem_append_left _ (List.mem_append_left _ (List.mem_append_left _ (List.mem_append_left _ (List.mem_append_left _ (List.mem_append_left _ (List.mem_append_left _ (List.mem_append_left _ (List.mem_append_left _ (List.mem_append_right _ h))))))))))))))))))))))

/-- The class `ObjectDetectionMaxRecall`. -/
def kObjectDetectionMaxRecall : Class V :=
  { name := "ObjectDetectionMaxRecall", ctors := [cObjectDetectionMaxRecall, cMaxRecall, cRecall, cConfusionMatrixMetric, cConfusionMatrixMetricBase],
    dflt := some "object_detection_max_recall", drops := droppable }

private theorem mem_kObjectDetectionMaxRecall : (kObjectDetectionMaxRecall : Class V) ∈ classes := by
  have h : (kObjectDetectionMaxRecall : Class V) ∈ classes_object_detection_confusion_matrix_metrics := by
    unfold classes_object_detection_confusion_matrix_metrics kObjectDetectionMaxRecall
    repeat (first | exact .head _ | apply List.Mem.tail)
  exact (List.mem_append_left _ (List.mem_append_left _ (List.mem_append_left _ (List.mem_append_left _ (List.mem_append_left _ (List.mem_append_left _ (List.mem_append_left _ (List.mem_append_left _ (List.mem_append_left _ (List.mem_append_left _ (List.mem_append_left _ (List.mem_append_left _ (List.mem_append_left _ (List.mem_append_right _ h))))))))))))))

/-- The class `COCOAveragePrecision`. -/
def kCOCOAveragePrecision : Class V :=
  { name := "COCOAveragePrecision", ctors := [cCOCOAveragePrecision],
    dflt := some "average_precision" }

private theorem mem_kCOCOAveragePrecision : (kCOCOAveragePrecision : Class V) ∈ classes := by
  have h : (kCOCOAveragePrecision : Class V) ∈ classes_object_detection_metrics := by
    unfold classes_object_detection_metrics kCOCOAveragePrecision
    repeat (first | exact .head _ | apply List.Mem.tail)
  exact (List.mem_append_left _ (List.mem_append_left _ (List.mem_append_left _ (List.mem_append_left _ (List.mem_append_left _ (List.mem_append_left _ (List.mem_append_left _ (List.mem_append_left _ (List.mem_append_left _ (List.mem_append_left _ (List.mem_append_left _ (List.mem_append_right _ h))))))))))))

/-- The class `QueryStatistics`. -/
def kQueryStatistics : Class V :=
  { name := "QueryStatistics", ctors := [cQueryStatistics] }

private theorem mem_kQueryStatistics : (kQueryStatistics : Class V) ∈ classes := by
  have h : (kQueryStatistics : Class V) ∈ classes_query_statistics := by
    unfold classes_query_statistics kQueryStatistics
    repeat (first | exact .head _ | apply List.Mem.tail)
  exact (List.mem_append_left _ (List.mem_append_left _ (List.mem_append_left _ (List.mem_append_left _ (List.mem_append_left _ (List.mem_append_left _ (List.mem_append_left _ (List.mem_append_left _ (List.mem_append_left _ (List.mem_append_right _ h))))))))))

/-- The class `Rouge`. -/
def kRouge : Class V :=
  { name := "Rouge", ctors := [cRouge] }

private theorem mem_kRouge : (kRouge : Class V) ∈ classes := by
  have h : (kRouge : Class V) ∈ classes_rouge := by
    unfold classes_rouge kRouge
    repeat (first | exact .head _ | apply List.Mem.tail)
  exact (List.mem_append_left _ (List.mem_append_left _ (List.mem_append_left _ (List.mem_append_left _ (List.mem_append_left _ (List.mem_append_left _ (List.mem_append_left _ (List.mem_append_left _ (List.mem_append_right _ h)))))))))

/-- Precision is among them, and its config is the arguments without those that are None. -/
example : (kPrecision : Class ℕ) ∈ classes ∧ (kPrecision : Class ℕ).name ∉ misfits ∧ ∃ m,
    kPrecision.make [("top_k", .int 2), ("class_weights", .other 7)] = .ok m ∧ m.name = .str "precision" ∧
    kPrecision.getConfig m = .ok [("top_k", .int 2), ("name", .str "precision"), ("class_weights", .other 7)] :=
  ⟨mem_kPrecision, by decide, _, rfl, rfl, rfl⟩

/-! ### the metrics whose configs do not fit -/

/-- Bleu keeps `use_effective_order` as `effective_order`, which its constructor does not take: whatever the arguments, its config is
refused. -/
theorem C147_bleu_fails : (kBleu : Class V) ∈ classes ∧
    ∀ (kw : Dict String (Val V)) (m : Metric V), kBleu.make kw = .ok m → Refused kBleu m := by
  refine ⟨mem_kBleu, fun kw m h => ?_⟩
  obtain ⟨env, x, K, -, rfl, hden, -⟩ := make_den _ cBleu [] rfl kw m h
  have hd : Dict.get? K "effective_order" = some (env "use_effective_order") := hden "effective_order"
  exact refused _ cBleu [] rfl rfl List.nodup_nil rfl rfl kw _ h "effective_order" _ rfl (.inl rfl) (by decide)
    (by rw [init_get, if_neg (by decide)]; exact hd) (by intro h; cases h)

example : ∃ m, (kBleu : Class ℕ).make [] = .ok m := ⟨_, rfl⟩

/-- BooleanFlipRates keeps `flip_rate_name` as `symmetric_flip_rate_name`. -/
theorem C147_flip_rates_fails : (kBooleanFlipRates : Class V) ∈ classes ∧
    ∀ (kw : Dict String (Val V)) (m : Metric V), kBooleanFlipRates.make kw = .ok m → Refused kBooleanFlipRates m := by
  refine ⟨mem_kBooleanFlipRates, fun kw m h => ?_⟩
  obtain ⟨env, x, K, -, rfl, hden, -⟩ := make_den _ cBooleanFlipRates [] rfl kw m h
  have hd : Dict.get? K "symmetric_flip_rate_name" = some (env "flip_rate_name") := hden "symmetric_flip_rate_name"
  exact refused _ cBooleanFlipRates [] rfl rfl List.nodup_nil rfl rfl kw _ h "symmetric_flip_rate_name" _ rfl (.inl rfl) (by decide)
    (by rw [init_get, if_neg (by decide)]; exact hd) (by intro h; cases h)

example : ∃ m, (kBooleanFlipRates : Class ℕ).make [("threshold", .num 0)] = .ok m := ⟨_, rfl⟩

/-- COCOAveragePrecision keeps `recalls` or `num_recalls` as `recall_thresholds`. -/
theorem C147_average_precision_fails : (kCOCOAveragePrecision : Class V) ∈ classes ∧
    ∀ (kw : Dict String (Val V)) (m : Metric V), kCOCOAveragePrecision.make kw = .ok m → Refused kCOCOAveragePrecision m := by
  refine ⟨mem_kCOCOAveragePrecision, fun kw m h => ?_⟩
  obtain ⟨env, x, K, -, rfl, -, hb⟩ := make_den _ cCOCOAveragePrecision [] rfl kw m h
  have hd : Dict.get? K "recall_thresholds" = some (cocoRecalls env) := by
    obtain ⟨-, -, hr⟩ := body_ok _ env x K (hb rfl)
    exact (hr "recall_thresholds").trans rfl
  exact refused _ cCOCOAveragePrecision [] rfl rfl List.nodup_nil rfl rfl kw _ h "recall_thresholds" _ rfl (.inl rfl) (by decide)
    (by rw [init_get, if_neg (by decide)]; exact hd) (by intro h; cases h)

example : ∃ m, (kCOCOAveragePrecision : Class ℕ).make [("iou_threshold", .num 0)] = .ok m := ⟨_, rfl⟩

/-- MaxRecall sets `thresholds` itself, and so refuses them when they come back from its config; ObjectDetectionMaxRecall does not take
them. -/
theorem C147_max_recall_fails : (kMaxRecall : Class V) ∈ classes ∧ (kObjectDetectionMaxRecall : Class V) ∈ classes ∧
    ∀ (kw : Dict String (Val V)) (m : Metric V), (kMaxRecall.make kw = .ok m → Refused kMaxRecall m) ∧
      (kObjectDetectionMaxRecall.make kw = .ok m → Refused kObjectDetectionMaxRecall m) := by
  refine ⟨mem_kMaxRecall, mem_kObjectDetectionMaxRecall, fun kw m => ⟨fun h => ?_, fun h => ?_⟩⟩
  · obtain ⟨env, x, K, -, rfl, hden, -⟩ := make_den _ cMaxRecall _ rfl kw m h
    have hd : Dict.get? K "thresholds" = some (.num (1 / 1000000000000)) := hden "thresholds"
    exact refused _ cMaxRecall _ rfl rfl (show droppable.Nodup by decide) rfl rfl kw _ h "thresholds" _ rfl (.inr rfl) (by decide)
      (by rw [init_get, if_neg (by decide)]; exact hd) (by intro _ h; cases h)
  · obtain ⟨env, x, K, -, rfl, hden, -⟩ := make_den _ cObjectDetectionMaxRecall _ rfl kw m h
    have hd : Dict.get? K "thresholds" = some (.num (1 / 1000000000000)) := hden "thresholds"
    exact refused _ cObjectDetectionMaxRecall _ rfl rfl (show droppable.Nodup by decide) rfl rfl kw _ h "thresholds" _ rfl (.inl rfl) (by decide)
      (by rw [init_get, if_neg (by decide)]; exact hd) (by intro _ h; cases h)

example : ∃ m, (kMaxRecall : Class ℕ).make [("name", .str "r")] = .ok m := ⟨_, rfl⟩

/-- BinaryAccuracy keeps `threshold` as `thresholds`; a metric made with a threshold is not made again. -/
theorem C147_binary_accuracy_fails : (kBinaryAccuracy : Class V) ∈ classes ∧
    ∀ (kw : Dict String (Val V)) (m : Metric V) (v : Val V), kBinaryAccuracy.make kw = .ok m → Dict.get? kw "threshold" = some v →
      v ≠ .none → Refused kBinaryAccuracy m := by
  refine ⟨mem_kBinaryAccuracy, fun kw m v h hv hne => ?_⟩
  obtain ⟨env, x, K, hb, rfl, hden, -⟩ := make_den _ cBinaryAccuracy _ rfl kw m h
  obtain ⟨-, -, -, b4⟩ := bind_ok _ kw x env hb
  have hd : Dict.get? K "thresholds" = some (env "threshold") := hden "thresholds"
  rw [b4 _ v hv] at hd
  exact refused _ cBinaryAccuracy _ rfl rfl (show droppable.Nodup by decide) rfl rfl kw _ h "thresholds" v rfl (.inl rfl) (by decide)
    (by rw [init_get, if_neg (by decide)]; exact hd) (fun _ => hne)

/-- Without a threshold it is made again. -/
example : ∃ m, (kBinaryAccuracy : Class ℕ).make [("class_id", .int 1)] = .ok m ∧ ∃ cfg m', kBinaryAccuracy.getConfig m = .ok cfg ∧
    kBinaryAccuracy.fromConfig cfg = .ok m' ∧ m' = m := ⟨_, rfl, _, _, rfl, rfl, rfl⟩

example : ∃ m, (kBinaryAccuracy : Class ℕ).make [("threshold", .num 1)] = .ok m := ⟨_, rfl⟩

/-- The preprocessors given to Precision are accepted and forgotten: the metric is the one made without them. -/
theorem C147_preprocessors_fails (kw : Dict String (Val V)) (m : Metric V) (h : kPrecision.make kw = .ok m) :
    Dict.get? m.kwargs "preprocessors" = none := by
  obtain ⟨env, x, K, hb, rfl, hden, -⟩ := make_den _ cPrecision _ rfl kw m h
  rw [init_get, if_neg (by decide)]
  exact hden "preprocessors"

example : ∃ m, (kPrecision : Class ℕ).make [("preprocessors", .other 3)] = .ok m ∧ kPrecision.make [] = .ok m := ⟨_, rfl, rfl⟩

/-! ### names -/

/-- Two classes without a name, which name the metrics of their computations, and one which is named after its `rouge_type`. -/
def nameless : List String := ["BooleanFlipRates", "QueryStatistics", "Rouge"]

/-- Without an argument `name` the name is a true value. -/
private def named (c : Class V) : Bool :=
  match c.ctors, track c.ctors "name" with
  | c0 :: _, .own p => p == "name" && (match Dict.get? c0.params "name" with
     | some (some v) => truthy (fixName c.dflt v)
     | _ => false)
  | _, _ => false

private theorem of_allNamed {l : List (Class V)} (h : (l.all fun c => nameless.contains c.name || named c) = true) :
    ∀ c ∈ l, c = kMean ∨ c.name ∈ nameless ∨ named c = true := by
  intro c hm
  have h := List.all_eq_true.1 h c hm
  simp only [Bool.or_eq_true, List.contains_iff_mem] at h
  exact .inr h

set_option maxHeartbeats 4000000 in
private theorem n_classes_attributions : ∀ c ∈ (classes_attributions : List (Class V)), c = kMean ∨ c.name ∈ nameless ∨ named c = true := of_allNamed (by rfl)

set_option maxHeartbeats 4000000 in
private theorem n_classes_bleu : ∀ c ∈ (classes_bleu : List (Class V)), c = kMean ∨ c.name ∈ nameless ∨ named c = true := of_allNamed (by rfl)

set_option maxHeartbeats 4000000 in
private theorem n_classes_calibration : ∀ c ∈ (classes_calibration : List (Class V)), c = kMean ∨ c.name ∈ nameless ∨ named c = true := of_allNamed (by rfl)

set_option maxHeartbeats 4000000 in
private theorem n_classes_calibration_plot : ∀ c ∈ (classes_calibration_plot : List (Class V)), c = kMean ∨ c.name ∈ nameless ∨ named c = true := of_allNamed (by rfl)

set_option maxHeartbeats 4000000 in
private theorem n_classes_confusion_matrix_metrics : ∀ c ∈ (classes_confusion_matrix_metrics : List (Class V)), c = kMean ∨ c.name ∈ nameless ∨ named c = true := of_allNamed (by rfl)

set_option maxHeartbeats 4000000 in
private theorem n_classes_confusion_matrix_plot : ∀ c ∈ (classes_confusion_matrix_plot : List (Class V)), c = kMean ∨ c.name ∈ nameless ∨ named c = true := of_allNamed (by rfl)

set_option maxHeartbeats 4000000 in
private theorem n_classes_cross_entropy_metrics : ∀ c ∈ (classes_cross_entropy_metrics : List (Class V)), c = kMean ∨ c.name ∈ nameless ∨ named c = true := of_allNamed (by rfl)

set_option maxHeartbeats 4000000 in
private theorem n_classes_exact_match : ∀ c ∈ (classes_exact_match : List (Class V)), c = kMean ∨ c.name ∈ nameless ∨ named c = true := of_allNamed (by rfl)

set_option maxHeartbeats 4000000 in
private theorem n_classes_example_count : ∀ c ∈ (classes_example_count : List (Class V)), c = kMean ∨ c.name ∈ nameless ∨ named c = true := of_allNamed (by rfl)

set_option maxHeartbeats 4000000 in
private theorem n_classes_flip_metrics : ∀ c ∈ (classes_flip_metrics : List (Class V)), c = kMean ∨ c.name ∈ nameless ∨ named c = true := of_allNamed (by rfl)

set_option maxHeartbeats 4000000 in
private theorem n_classes_mean_regression_error : ∀ c ∈ (classes_mean_regression_error : List (Class V)), c = kMean ∨ c.name ∈ nameless ∨ named c = true := of_allNamed (by rfl)

set_option maxHeartbeats 4000000 in
private theorem n_classes_min_label_position : ∀ c ∈ (classes_min_label_position : List (Class V)), c = kMean ∨ c.name ∈ nameless ∨ named c = true := of_allNamed (by rfl)

set_option maxHeartbeats 4000000 in
private theorem n_classes_model_cosine_similarity : ∀ c ∈ (classes_model_cosine_similarity : List (Class V)), c = kMean ∨ c.name ∈ nameless ∨ named c = true := of_allNamed (by rfl)

set_option maxHeartbeats 4000000 in
private theorem n_classes_multi_class_confusion_matrix_metrics : ∀ c ∈ (classes_multi_class_confusion_matrix_metrics : List (Class V)), c = kMean ∨ c.name ∈ nameless ∨ named c = true := of_allNamed (by rfl)

set_option maxHeartbeats 4000000 in
private theorem n_classes_multi_class_confusion_matrix_plot : ∀ c ∈ (classes_multi_class_confusion_matrix_plot : List (Class V)), c = kMean ∨ c.name ∈ nameless ∨ named c = true := of_allNamed (by rfl)

set_option maxHeartbeats 4000000 in
private theorem n_classes_multi_label_confusion_matrix_plot : ∀ c ∈ (classes_multi_label_confusion_matrix_plot : List (Class V)), c = kMean ∨ c.name ∈ nameless ∨ named c = true := of_allNamed (by rfl)

set_option maxHeartbeats 4000000 in
private theorem n_classes_ndcg : ∀ c ∈ (classes_ndcg : List (Class V)), c = kMean ∨ c.name ∈ nameless ∨ named c = true := of_allNamed (by rfl)

set_option maxHeartbeats 4000000 in
private theorem n_classes_object_detection_confusion_matrix_metrics : ∀ c ∈ (classes_object_detection_confusion_matrix_metrics : List (Class V)), c = kMean ∨ c.name ∈ nameless ∨ named c = true := of_allNamed (by rfl)

set_option maxHeartbeats 4000000 in
private theorem n_classes_object_detection_confusion_matrix_plot : ∀ c ∈ (classes_object_detection_confusion_matrix_plot : List (Class V)), c = kMean ∨ c.name ∈ nameless ∨ named c = true := of_allNamed (by rfl)

set_option maxHeartbeats 4000000 in
private theorem n_classes_object_detection_metrics : ∀ c ∈ (classes_object_detection_metrics : List (Class V)), c = kMean ∨ c.name ∈ nameless ∨ named c = true := of_allNamed (by rfl)

set_option maxHeartbeats 4000000 in
private theorem n_classes_prediction_difference_metrics : ∀ c ∈ (classes_prediction_difference_metrics : List (Class V)), c = kMean ∨ c.name ∈ nameless ∨ named c = true := of_allNamed (by rfl)

set_option maxHeartbeats 4000000 in
private theorem n_classes_query_statistics : ∀ c ∈ (classes_query_statistics : List (Class V)), c = kMean ∨ c.name ∈ nameless ∨ named c = true := of_allNamed (by rfl)

set_option maxHeartbeats 4000000 in
private theorem n_classes_rouge : ∀ c ∈ (classes_rouge : List (Class V)), c = kMean ∨ c.name ∈ nameless ∨ named c = true := of_allNamed (by rfl)

set_option maxHeartbeats 4000000 in
private theorem n_classes_sample_metrics : ∀ c ∈ (classes_sample_metrics : List (Class V)), c = kMean ∨ c.name ∈ nameless ∨ named c = true := of_allNamed (by rfl)

set_option maxHeartbeats 4000000 in
private theorem n_classes_score_distribution_plot : ∀ c ∈ (classes_score_distribution_plot : List (Class V)), c = kMean ∨ c.name ∈ nameless ∨ named c = true := of_allNamed (by rfl)

set_option maxHeartbeats 4000000 in
private theorem n_classes_semantic_segmentation_confusion_matrix_metrics : ∀ c ∈ (classes_semantic_segmentation_confusion_matrix_metrics : List (Class V)), c = kMean ∨ c.name ∈ nameless ∨ named c = true := of_allNamed (by rfl)

set_option maxHeartbeats 4000000 in
private theorem n_classes_set_match_confusion_matrix_metrics : ∀ c ∈ (classes_set_match_confusion_matrix_metrics : List (Class V)), c = kMean ∨ c.name ∈ nameless ∨ named c = true := of_allNamed (by rfl)

set_option maxHeartbeats 4000000 in
private theorem n_classes_squared_pearson_correlation : ∀ c ∈ (classes_squared_pearson_correlation : List (Class V)), c = kMean ∨ c.name ∈ nameless ∨ named c = true := of_allNamed (by rfl)

set_option maxHeartbeats 4000000 in
private theorem n_classes_tjur_discrimination : ∀ c ∈ (classes_tjur_discrimination : List (Class V)), c = kMean ∨ c.name ∈ nameless ∨ named c = true := of_allNamed (by rfl)

set_option maxHeartbeats 4000000 in
private theorem n_classes_weighted_example_count : ∀ c ∈ (classes_weighted_example_count : List (Class V)), c = kMean ∨ c.name ∈ nameless ∨ named c = true := of_allNamed (by rfl)

private theorem n_classes_stats : ∀ c ∈ (classes_stats : List (Class V)), c = kMean ∨ c.name ∈ nameless ∨ named c = true :=
  fun _ hc => .inl (List.mem_singleton.1 hc)

private theorem classes_named : ∀ c ∈ (classes : List (Class V)), c = kMean ∨ c.name ∈ nameless ∨ named c = true :=
  (forall_append (forall_append (forall_append (forall_append (forall_append (forall_append (forall_append (forall_append (forall_append
    (forall_append (forall_append (forall_append (forall_append (forall_append (forall_append (forall_append (forall_append (forall_append
    (forall_append (forall_append (forall_append (forall_append (forall_append (forall_append (forall_append (forall_append (forall_append
    (forall_append (forall_append (forall_append n_classes_attributions n_classes_bleu) n_classes_calibration) n_classes_calibration_plot)
    n_classes_confusion_matrix_metrics) n_classes_confusion_matrix_plot) n_classes_cross_entropy_metrics) n_classes_exact_match)
    n_classes_example_count) n_classes_flip_metrics) n_classes_mean_regression_error) n_classes_min_label_position)
    n_classes_model_cosine_similarity) n_classes_multi_class_confusion_matrix_metrics) n_classes_multi_class_confusion_matrix_plot)
    n_classes_multi_label_confusion_matrix_plot) n_classes_ndcg) n_classes_object_detection_confusion_matrix_metrics)
    n_classes_object_detection_confusion_matrix_plot) n_classes_object_detection_metrics) n_classes_prediction_difference_metrics)
    n_classes_query_statistics) n_classes_rouge) n_classes_sample_metrics) n_classes_score_distribution_plot)
    n_classes_semantic_segmentation_confusion_matrix_metrics) n_classes_set_match_confusion_matrix_metrics)
    n_classes_squared_pearson_correlation) n_classes_stats) n_classes_tjur_discrimination) n_classes_weighted_example_count)

/-- A metric made without a name has a name nevertheless, but for three classes. -/
theorem C147_named (c : Class V) (hc : c ∈ classes) (hn : c.name ∉ nameless) (kw : Dict String (Val V)) (m : Metric V)
    (h : c.make kw = .ok m) (hk : Dict.get? kw "name" = none) : truthy m.name = true := by
  rcases classes_named c hc with rfl | h1 | h1
  · obtain ⟨env, x, K, hb, rfl, hden, -⟩ := make_den _ cMean [] rfl kw m h
    obtain ⟨-, -, b3, -⟩ := bind_ok _ kw x env hb
    have he : env "name" = .none := by
      obtain ⟨v, h1, h2⟩ := b3 "name" rfl hk
      have h1 : some (some Val.none) = some (some v) := h1
      cases h1
      exact h2
    have hd : Dict.get? K "name" = some (if truthy (env "name") then env "name" else meanName (env "feature_key_path")) := hden "name"
    rw [he] at hd
    rw [init_name, hd]
    cases env "feature_key_path" <;> simp [meanName, truthy, fixName, kMean]
  · exact absurd h1 hn
  · unfold named at h1
    split at h1
    next c0 cs p hcs ht =>
      simp only [Bool.and_eq_true, beq_iff_eq] at h1
      obtain ⟨rfl, h1⟩ := h1
      obtain ⟨env, x, K, hb, rfl, hden, -⟩ := make_den c c0 cs hcs kw m h
      obtain ⟨-, -, b3, -⟩ := bind_ok _ kw x env hb
      split at h1
      next v hv =>
        obtain ⟨w, h2, h3⟩ := b3 "name" (by unfold Ctor.has Dict.has; rw [hv]; rfl) hk
        rw [hv] at h2
        cases h2
        have hd := hden "name"
        rw [ht] at hd
        have hd : Dict.get? K "name" = some (env "name") := hd
        rw [init_name, hd, h3]
        exact h1
      next => cases h1
    next => cases h1

/-- A metric has the name it is given; an empty one, like None, is replaced by the default name of the class if it has one. -/
theorem C147_given_name (c : Class V) (hc : c ∈ classes) (hn : c.name ∉ nameless) (hm : c.name ≠ "Mean") (kw : Dict String (Val V))
    (m : Metric V) (h : c.make kw = .ok m) :
    (∀ s, Dict.get? kw "name" = some (.str s) → s ≠ "" → m.name = .str s) ∧
    (∀ d, c.dflt = some d → d ≠ "" → (Dict.get? kw "name" = some (.str "") ∨ Dict.get? kw "name" = some .none) → m.name = .str d) ∧
    (c.dflt = none → ∀ v, Dict.get? kw "name" = some v → m.name = v) := by
  rcases classes_named c hc with rfl | h1 | h1
  · exact absurd rfl hm
  · exact absurd h1 hn
  · unfold named at h1
    split at h1
    next c0 cs p hcs ht =>
      simp only [Bool.and_eq_true, beq_iff_eq] at h1
      obtain ⟨rfl, -⟩ := h1
      obtain ⟨env, x, K, hb, rfl, hden, -⟩ := make_den c c0 cs hcs kw m h
      obtain ⟨-, -, -, b4⟩ := bind_ok _ kw x env hb
      have hd := hden "name"
      rw [ht] at hd
      have hd : Dict.get? K "name" = some (env "name") := hd
      rw [init_name, hd]
      refine ⟨fun s hs hne => ?_, fun d hd hne hs => ?_, fun hd v hs => ?_⟩
      · rw [b4 _ _ hs]; simp [fixName, truthy, hne]
      · rcases hs with hs | hs <;> rw [b4 _ _ hs] <;> simp [fixName, truthy, hd, hne]
      · rw [b4 _ _ hs]; simp [fixName, hd]
    next => cases h1

example : ∃ m, (kPrecision : Class ℕ).make [("name", .str "")] = .ok m ∧ m.name = .str "precision" := ⟨_, rfl, rfl⟩

example : (kMean : Class ℕ).make [("feature_key_path", .texts ["f", "age"])] =
    .ok ⟨.str "mean_f.age", [("feature_key_path", .texts ["f", "age"]), ("example_weights_key_path", .none), ("name", .str "mean_f.age")]⟩ := by
  rfl

/-- The three classes: two have no name, and Rouge is named after its type. -/
theorem C147_nameless (kw : Dict String (Val V)) (m : Metric V) (hk : Dict.get? kw "name" = none) :
    (kBooleanFlipRates.make kw = .ok m → m.name = .none) ∧ (kQueryStatistics.make kw = .ok m → m.name = .none) ∧
    (kRouge.make kw = .ok m → ∀ v, Dict.get? kw "rouge_type" = some v → m.name = v) := by
  refine ⟨fun h => ?_, fun h => ?_, fun h v hv => ?_⟩
  · obtain ⟨env, x, K, hb, rfl, hden, -⟩ := make_den _ cBooleanFlipRates [] rfl kw m h
    obtain ⟨b1, -, -, -⟩ := bind_ok _ kw x env hb
    have hd : Dict.get? K "name" = Dict.get? x "name" := hden "name"
    have hx : Dict.get? x "name" = none := (b1 "name").trans hk
    rw [init_name, hd, hx]; rfl
  · obtain ⟨env, x, K, hb, rfl, hden, -⟩ := make_den _ cQueryStatistics [] rfl kw m h
    obtain ⟨b1, -, -, -⟩ := bind_ok _ kw x env hb
    have hd : Dict.get? K "name" = Dict.get? x "name" := hden "name"
    have hx : Dict.get? x "name" = none := (b1 "name").trans hk
    rw [init_name, hd, hx]; rfl
  · obtain ⟨env, x, K, hb, rfl, hden, -⟩ := make_den _ cRouge [] rfl kw m h
    obtain ⟨-, -, b3, b4⟩ := bind_ok _ kw x env hb
    have he : env "name" = .none := by
      obtain ⟨w, h1, h2⟩ := b3 "name" rfl hk
      have h1 : some (some Val.none) = some (some w) := h1
      cases h1
      exact h2
    have hd : Dict.get? K "name" = some (if truthy (env "name") then env "name" else id (env "rouge_type")) := hden "name"
    rw [he, b4 _ v hv] at hd
    rw [init_name, hd]
    simp [truthy, fixName, kRouge]

example : ∃ m, (kRouge : Class ℕ).make [("rouge_type", .str "rougeL")] = .ok m := ⟨_, rfl⟩

end MetricCtors
end TFMA
