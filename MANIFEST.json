{
 "claims": [
  {
   "property": "C01",
   "status": "proved",
   "theorems": [
    "Verif.Cache.C01_file_roundtrip"
   ],
   "note": "Any history, any sizes, any listing order. For paths that match themselves as a glob pattern (see C51)."
  },
  {
   "property": "C02",
   "status": "partial",
   "theorems": [
    "Verif.Cache.C02_violation",
    "Verif.Cache.C02_mem_multiset_partial",
    "Verif.Cache.C02_mem_order_partial"
   ],
   "note": "False of the code: write_table overtakes buffered rows (witness). Multiset always kept; order kept when write_table follows a flush."
  },
  {
   "property": "C03",
   "status": "proved",
   "theorems": [
    "Verif.Cache.C03_mem_accounting",
    "Verif.Cache.C03_file_crash_prefix"
   ],
   "note": ""
  },
  {
   "property": "C04",
   "status": "proved",
   "theorems": [
    "Verif.Cache.C04_file_alignment",
    "Verif.Cache.C04_fresh_name",
    "Verif.Cache.C04_file_order"
   ],
   "note": "For paths that match themselves as a glob pattern (see C51)."
  },
  {
   "property": "C05",
   "status": "proved",
   "theorems": [
    "Verif.Cache.C05_sort_file",
    "Verif.Cache.C05_sort_override",
    "Verif.Cache.C05_descending"
   ],
   "note": "Batches assumed non-empty, as pyarrow produces them; C05_empty_batch_loses_rows shows why. float keys as rationals."
  },
  {
   "property": "C06",
   "status": "partial",
   "theorems": [
    "Verif.Cache.C06_violation",
    "Verif.Cache.C06_mem_content_partial",
    "Verif.Cache.C06_mem_partial"
   ],
   "note": "False of the code for an in-memory sink with a multi-fragment source (witness)."
  },
  {
   "property": "C07",
   "status": "proved",
   "theorems": [
    "Verif.Cache.C07_sort_deterministic"
   ],
   "note": ""
  },
  {
   "property": "C08",
   "status": "proved",
   "theorems": [
    "Verif.Cache.C08_page_content",
    "Verif.Cache.C08_pages_partition",
    "Verif.Cache.C08_page_size",
    "Verif.Cache.C08_limit_zero",
    "Verif.Cache.C08_index_unique"
   ],
   "note": ""
  },
  {
   "property": "C09",
   "status": "partial",
   "theorems": [
    "Verif.Cache.Life.C09_violation",
    "Verif.Cache.Life.C09_create_load_partial"
   ],
   "note": "A cache created with a zero size cannot be loaded (witness)."
  },
  {
   "property": "C10",
   "status": "partial",
   "theorems": [
    "Verif.Cache.Life.C10_violation",
    "Verif.Cache.Life.C10_restart_partial",
    "Verif.Cache.Life.C10_no_overwrite",
    "Verif.Cache.Life.recoverable_iff"
   ],
   "note": "Crash windows that leave a directory that cannot be recreated (witness); recoverable states characterised exactly."
  },
  {
   "property": "C11",
   "status": "proved",
   "theorems": [
    "Verif.Cache.Life.C11_delete_exact"
   ],
   "note": "For paths without glob metacharacters (see C51)."
  },
  {
   "property": "C51",
   "status": "partial",
   "theorems": [
    "Verif.Cache.Glob.C51_violation",
    "Verif.Cache.Glob.C51_own_data_partial",
    "Verif.Cache.Glob.C51_hidden",
    "Verif.Cache.Glob.blind_one_file"
   ],
   "note": "False for names with glob metacharacters (witness); proved for all other names."
  },
  {
   "property": "C12",
   "status": "proved",
   "theorems": [
    "Verif.Classification.C12_ids",
    "Verif.Classification.C12_rows"
   ],
   "note": ""
  },
  {
   "property": "C13",
   "status": "proved",
   "theorems": [
    "Verif.Classification.C13_counts"
   ],
   "note": "Up to 100000 distinct labels; beyond that ids are confounded (C20)."
  },
  {
   "property": "C14",
   "status": "partial",
   "theorems": [
    "Verif.Classification.C14_violation",
    "Verif.Classification.C14_recall_denominator_partial",
    "Verif.Classification.C14_exact"
   ],
   "note": "False of the code for a datum whose ground truth is not among its predictions (witness); exactly the datums that do not score their ground truth and stay below the threshold are missing (C14_exact); holds when each datum scores its ground truth and lists no label twice."
  },
  {
   "property": "C15",
   "status": "proved",
   "theorems": [
    "Verif.Classification.C15_fragmentation",
    "Verif.Classification.C13_counts"
   ],
   "note": ""
  },
  {
   "property": "C16",
   "status": "partial",
   "theorems": [
    "Verif.Classification.C16_precision_recall",
    "Verif.Classification.C16_f1_range",
    "Verif.Classification.C16_f1_partial",
    "Verif.Classification.C16_f1_violation",
    "Verif.Classification.C16_reported_partial",
    "Verif.Classification.C16_accuracy_hardmax",
    "Verif.Classification.C16_accuracy_all_partial",
    "Verif.Classification.C16_accuracy_violation"
   ],
   "note": "Accuracy can exceed 1 with hardmax=False and a label listed twice (witness); F1 is cut to 0 for tiny precision and recall (witness)."
  },
  {
   "property": "C17",
   "status": "partial",
   "theorems": [
    "Verif.Classification.C17_violation",
    "Verif.Classification.C17_partial",
    "Verif.Classification.C17_scaled_accuracy"
   ],
   "note": "False of the code: the denominator ignores the filter (witness). Exact relation proved."
  },
  {
   "property": "C18",
   "status": "partial",
   "theorems": [
    "Verif.Classification.C18_counts",
    "Verif.Classification.C18_cm_running_max",
    "Verif.Classification.C18_excm_running_max",
    "Verif.Classification.C18_examples_running_max",
    "Verif.Classification.C18_matrix_partial",
    "Verif.Classification.C18_excm_partial",
    "Verif.Classification.C18_violation",
    "Verif.Detection.C60_single",
    "Verif.Detection.C62_single",
    "Verif.Detection.C18_detection",
    "Verif.Classification.C18_classification"
   ],
   "note": "Counts: proved for every list. Classification confusion matrix and examples: false of the code unless thresholds ascend (witness); exact result proved. Detection: proved for all lists (C60_single, C62_single)."
  },
  {
   "property": "C19",
   "status": "proved",
   "theorems": [
    "Verif.Classification.C19_matrix",
    "Verif.Classification.C19_conservation",
    "Verif.Classification.C19_examples"
   ],
   "note": ""
  },
  {
   "property": "C20",
   "status": "partial",
   "theorems": [
    "Verif.Classification.C20_partial",
    "Verif.Classification.C20_violation",
    "Verif.Classification.C20_every_id"
   ],
   "note": "False of the code from 100000 labels on (witness for every such id)."
  },
  {
   "property": "C52",
   "status": "proved",
   "theorems": [
    "Verif.Classification.C52_examples",
    "Verif.Classification.C52_pages"
   ],
   "note": "A limit of 0 means no limit."
  },
  {
   "property": "C53",
   "status": "partial",
   "theorems": [
    "Verif.Classification.C53_partial",
    "Verif.Classification.C53_violation",
    "Verif.Classification.C53_violation_repeated"
   ],
   "note": "False of the code for scores between 1e-9 and 1e-8 and for labels listed twice in one prediction (witnesses)."
  },
  {
   "property": "C21",
   "status": "partial",
   "theorems": [
    "Verif.Classification.C21_rocauc_partial",
    "Verif.Classification.C21_zero_violation",
    "Verif.Classification.C21_zero_exact",
    "Verif.Classification.C21_untied",
    "Verif.Classification.C21_either_partial"
   ],
   "note": "False of the code for a label whose highest score is zero (witness): a label that always scores 0 gets area 0 (C21_zero_exact). Otherwise proved for every history, cut into tables and sorted intermediate; boundary condition on the ROC curve chunks as in C22, which is not needed if no positive and negative tie at the highest score (C21_untied)."
  },
  {
   "property": "C22",
   "status": "partial",
   "theorems": [
    "Verif.Classification.C22_tables",
    "Verif.Classification.C22_batches_partial",
    "Verif.Classification.C22_cut_violation",
    "Verif.Classification.C22_cut_exact",
    "Verif.Classification.C22_splits_exact",
    "Verif.Classification.C76_rocauc_partial"
   ],
   "note": "Splits of the sorted intermediate never matter (C22_tables). Splits of the ROC curve rows: false of the code when a boundary comes right after the origin row of a label (witness; C22_cut_exact and C22_splits_exact give exactly what is lost there, for every division), otherwise proved."
  },
  {
   "property": "C23",
   "status": "proved",
   "theorems": [
    "Verif.Classification.C23_filter",
    "Verif.Classification.C23_filter_general",
    "Verif.Classification.C23_datum_counts"
   ],
   "note": "One-sided conditions in C23_filter; conditions that mix both sides are characterised in C23_filter_general. finalize sorts the result locally."
  },
  {
   "property": "C50",
   "status": "proved",
   "theorems": [
    "Verif.Shared.C50_override",
    "Verif.Shared.C50_extract",
    "Verif.Shared.C50_no_placeholder",
    "Verif.Classification.C50_classification",
    "Verif.Detection.C50_detection",
    "Verif.Segmentation.C50_segmentation",
    "Verif.Segmentation.C50_filtered_violation"
   ],
   "note": "Filtered caches loaded without the documented override can have gaps in the numbering (C50_filtered_violation)."
  },
  {
   "property": "C24",
   "status": "proved",
   "theorems": [
    "Verif.Detection.C24_definition",
    "Verif.Detection.C24_tiny",
    "Verif.Detection.C24_range",
    "Verif.Detection.C24_symmetric",
    "Verif.Detection.C24_zero",
    "Verif.Detection.C24_one"
   ],
   "note": "Against the Lebesgue measure of the regions, in exact arithmetic. Polygons: C100."
  },
  {
   "property": "C25",
   "status": "proved",
   "theorems": [
    "Verif.Detection.C25_definition",
    "Verif.Detection.C25_range",
    "Verif.Detection.C25_symmetric",
    "Verif.Detection.C25_zero",
    "Verif.Detection.C25_one"
   ],
   "note": ""
  },
  {
   "property": "C26",
   "status": "partial",
   "theorems": [
    "Verif.Detection.C26_order",
    "Verif.Detection.C26_best",
    "Verif.Detection.C26_multiplicity",
    "Verif.Detection.C26_single_label_partial",
    "Verif.Detection.C26_violation"
   ],
   "note": "Order, best row and multiplicity proved. With several labels on one prediction the claim is false of the code (witness): when one label of a prediction matches, its other labels disappear from the ranked cache; proved when each prediction has one label."
  },
  {
   "property": "C27",
   "status": "proved",
   "theorems": [
    "Verif.Detection.C27_table",
    "Verif.Detection.C27_first_match",
    "Verif.Detection.C27_at_most_once",
    "Verif.Detection.C27_zero_threshold"
   ],
   "note": "Positive IoU thresholds; for thresholds <= 0 there is never a true positive (C27_zero_threshold)."
  },
  {
   "property": "C28",
   "status": "proved",
   "theorems": [
    "Verif.Detection.C28_tp_fp",
    "Verif.Detection.C28_tp",
    "Verif.Detection.C28_groundtruths",
    "Verif.Detection.C28_bound",
    "Verif.Detection.C28_fn",
    "Verif.Detection.C28_precision_recall"
   ],
   "note": "For every cut of the ranked cache into tables. Active predictions also need a score above 1e-9."
  },
  {
   "property": "C29",
   "status": "partial",
   "theorems": [
    "Verif.Detection.C29_interpolation",
    "Verif.Detection.C29_cache",
    "Verif.Detection.C29_range",
    "Verif.Detection.C29_perfect",
    "Verif.Detection.C29_none",
    "Verif.Detection.C29_double_violation"
   ],
   "note": "Complete in exact arithmetic. In double precision the recall bin can be one too low (witness: 29 of 100)."
  },
  {
   "property": "C30",
   "status": "proved",
   "theorems": [
    "Verif.Detection.C30_greedy",
    "Verif.Detection.greedyChoice_unique",
    "Verif.Detection.C30_one_to_one",
    "Verif.Detection.C30_maximal",
    "Verif.Detection.C30_matched"
   ],
   "note": ""
  },
  {
   "property": "C31",
   "status": "proved",
   "theorems": [
    "Verif.Detection.C31_isin",
    "Verif.Detection.C31_outside"
   ],
   "note": "Also exact for rows with missing ids; outside the range pairs are confounded (C31_outside)."
  },
  {
   "property": "C32",
   "status": "proved",
   "theorems": [
    "Verif.Detection.C32_groundtruths",
    "Verif.Detection.C32_predictions",
    "Verif.Detection.C32_match",
    "Verif.Detection.C32_multilabel_violation",
    "Verif.Detection.C32_zero_violation"
   ],
   "note": "Single-label predictions, as stated; with several labels it is false (C32_multilabel_violation), and a prediction with score 0 is counted nowhere even at score threshold 0 (C32_zero_violation)."
  },
  {
   "property": "C34",
   "status": "proved",
   "theorems": [
    "Verif.Detection.C34_rows",
    "Verif.Detection.C34_groundtruths",
    "Verif.Detection.C34_predictions",
    "Verif.Detection.C34_pairs",
    "Verif.Detection.C34_ids",
    "Verif.Detection.C34_constructor",
    "Verif.Detection.C34_constructed"
   ],
   "note": ""
  },
  {
   "property": "C33",
   "status": "proved",
   "theorems": [
    "Verif.Detection.C33_groundtruths",
    "Verif.Detection.C33_predictions",
    "Verif.Detection.C33_pairs",
    "Verif.Detection.C33_rows",
    "Verif.Detection.C33_counts",
    "Verif.Detection.C33_cacheOk",
    "Verif.Detection.C33_pairsOk",
    "Verif.Detection.C33_labelsBelow",
    "Verif.Detection.C33_datums"
   ],
   "note": "Conditions on ground truths and predictions are per row of the annotation: an annotation survives when one of its rows satisfies them. The filtered cache meets the hypotheses of C26-C32 again."
  },
  {
   "property": "C35",
   "status": "partial",
   "theorems": [
    "Verif.Classification.C35_classification",
    "Verif.Classification.C35_classification_caches_partial",
    "Verif.Classification.C35_classification_violation",
    "Verif.Classification.C35_classification_leftovers",
    "Verif.Detection.C35_detection_partial",
    "Verif.Detection.C35_detection_violation",
    "Verif.Segmentation.C35_segmentation",
    "Verif.Segmentation.C35_segmentation_data"
   ],
   "note": "Holds for classification when the first call stored a row of the ROC curve (every later call raises) and for segmentation (no state). False of the code for classification when the first call raised or stored no row because of its override (witness: ROCAUC 3), and for detection (witness): each further finalize adds the ranked rows again; exact effect on file caches proved."
  },
  {
   "property": "C54",
   "status": "proved",
   "theorems": [
    "Verif.Detection.C54_groundtruths",
    "Verif.Detection.C54_predictions",
    "Verif.Detection.C54_confusion_matrix",
    "Verif.Detection.C54_true_positives",
    "Verif.Detection.C54_exact",
    "Verif.Detection.C54_labels_violation"
   ],
   "note": "One label per ground truth (C54_labels_violation shows what happens with two), up to 100000 labels and 2^31 ids. C54_exact gives all counts as explicit functions of the annotations, also for predictions with several distinct labels; the other theorems (also under datum selections) take one label per prediction."
  },
  {
   "property": "C55",
   "status": "partial",
   "theorems": [
    "Verif.Detection.C55_counts",
    "Verif.Detection.C55_info_detection",
    "Verif.Detection.C55_datums_detection_violation",
    "Verif.Segmentation.C55_info_segmentation",
    "Verif.Segmentation.C55_datums_segmentation_violation",
    "Verif.Classification.C55_classification"
   ],
   "note": "Classification: exact. Detection: ground truths and predictions exact; datums without annotations are not counted (witness). Segmentation: pixels exact; an image cut by a batch boundary is counted twice as a datum (witness)."
  },
  {
   "property": "C36",
   "status": "partial",
   "theorems": [
    "Verif.Segmentation.C36_exact_partial",
    "Verif.Segmentation.C36_disjoint_unchanged",
    "Verif.Segmentation.C36_warning",
    "Verif.Segmentation.C36_union",
    "Verif.Segmentation.C36_two_partial",
    "Verif.Segmentation.C36_violation",
    "Verif.Segmentation.C36_shared_violation",
    "Verif.Segmentation.C36_error_violation",
    "Verif.Segmentation.C36_accepts"
   ],
   "note": "False of the code from three masks on (witness); exact result proved for every list of masks, disjoint for two masks, disjoint masks unchanged."
  },
  {
   "property": "C37",
   "status": "proved",
   "theorems": [
    "Verif.Segmentation.C37_entries",
    "Verif.Segmentation.C37_total",
    "Verif.Segmentation.C37_repeated_violation",
    "Verif.Segmentation.C37_overlap_violation"
   ],
   "note": "For disjoint masks with distinct labels, as stated; both conditions are needed (witnesses)."
  },
  {
   "property": "C38",
   "status": "proved",
   "theorems": [
    "Verif.Segmentation.C38_sum",
    "Verif.Segmentation.C38_matrix",
    "Verif.Segmentation.C38_labels",
    "Verif.Segmentation.C38_order"
   ],
   "note": "C38_sum holds for all images in uint64 arithmetic; C38_matrix gives pixel counts for disjoint masks with distinct labels and fewer than 2^64 pixels."
  },
  {
   "property": "C39",
   "status": "proved",
   "theorems": [
    "Verif.Segmentation.C39_values",
    "Verif.Segmentation.C39_f1",
    "Verif.Segmentation.C39_bounds",
    "Verif.Segmentation.C39_shares",
    "Verif.Segmentation.C39_mean",
    "Verif.Segmentation.C39_mean_violation",
    "Verif.Segmentation.C39_overlap_violation",
    "Verif.Segmentation.C39_dataset",
    "Verif.Segmentation.C39_accuracy"
   ],
   "note": "Fewer than 2^64 pixels, exact arithmetic. Mean IoU of no labels is NaN (witness)."
  },
  {
   "property": "C40",
   "status": "proved",
   "theorems": [
    "Verif.Segmentation.C40_rows",
    "Verif.Segmentation.C40_pixels",
    "Verif.Segmentation.C40_none",
    "Verif.Segmentation.C40_meaning"
   ],
   "note": ""
  },
  {
   "property": "C56",
   "status": "partial",
   "theorems": [
    "Verif.Segmentation.C56_segmentation",
    "Verif.Detection.C56_detection",
    "Verif.Detection.C56_detection_confusion",
    "Verif.Detection.C56_detection_loader",
    "Verif.Detection.C56_detection_report",
    "Verif.Classification.C56_classification_partial",
    "Verif.Classification.C56_classification_violation"
   ],
   "note": "Segmentation and detection in full. Classification: counts, precision, recall, F1 and confusion matrices agree; false of the code for accuracy (C17)."
  },
  {
   "property": "C58",
   "status": "proved",
   "theorems": [
    "Verif.Detection.C58_division",
    "Verif.Detection.C58_confusion",
    "Verif.Detection.C58_loader"
   ],
   "note": "For rows of the loader with any number of labels per prediction; ties in score and IoU included."
  },
  {
   "property": "C57",
   "status": "partial",
   "theorems": [
    "Verif.Segmentation.C57_batching_partial",
    "Verif.Segmentation.C40_meaning",
    "Verif.Segmentation.C57_batching_violation"
   ],
   "note": "False of the code for filters on metadata (witness); proved for filters decided by image and label."
  },
  {
   "property": "C41",
   "status": "proved",
   "theorems": [
    "Verif.TextGen.C41_first",
    "Verif.TextGen.C41_exhausted",
    "Verif.TextGen.C41_cases",
    "Verif.TextGen.C41_total",
    "Verif.TextGen.C41_error_iff",
    "Verif.TextGen.C41_negative_violation"
   ],
   "note": "For every world (LLM client with arbitrary state, JSON library) and every decorated method. With negative retries, outside the property's range, the wrapper returns None (C41_negative_violation)."
  },
  {
   "property": "C42",
   "status": "proved",
   "theorems": [
    "Verif.TextGen.C42_range_answer_correctness",
    "Verif.TextGen.C42_range_answer_relevance",
    "Verif.TextGen.C42_range_bias",
    "Verif.TextGen.C42_range_context_precision",
    "Verif.TextGen.C42_range_context_recall",
    "Verif.TextGen.C42_range_context_relevance",
    "Verif.TextGen.C42_range_faithfulness",
    "Verif.TextGen.C42_range_hallucination",
    "Verif.TextGen.C42_range_toxicity",
    "Verif.TextGen.C42_range_summary_coherence",
    "Verif.TextGen.C42_answer_correctness",
    "Verif.TextGen.C42_answer_relevance",
    "Verif.TextGen.C42_bias",
    "Verif.TextGen.C42_toxicity",
    "Verif.TextGen.C42_context_relevance",
    "Verif.TextGen.C42_context_recall",
    "Verif.TextGen.C42_faithfulness",
    "Verif.TextGen.C42_hallucination",
    "Verif.TextGen.C42_summary_coherence"
   ],
   "note": "Besides the ranges, each calculation is characterised exactly: which instruction is sent in which state, which parts of the reply count, and the value. Exact rationals instead of doubles."
  },
  {
   "property": "C43",
   "status": "proved",
   "theorems": [
    "Verif.TextGen.C43_range",
    "Verif.TextGen.C43_zero",
    "Verif.TextGen.C43_one",
    "Verif.TextGen.C43_swap",
    "Verif.TextGen.C43_mean",
    "Verif.TextGen.C43_context_precision"
   ],
   "note": "C43_swap shows that the score strictly rises. C43_context_precision ties the list of relevant contexts to the LLM's verdicts."
  },
  {
   "property": "C44",
   "status": "partial",
   "theorems": [
    "Verif.TextGen.C44_statements",
    "Verif.TextGen.C44_verdicts",
    "Verif.TextGen.C44_rejects_partial",
    "Verif.TextGen.C44_violation"
   ],
   "note": "Acceptance is exact. Rejection with an invalid-response error is false for a verdict that is a list or dictionary: set membership raises TypeError (C44_violation)."
  },
  {
   "property": "C45",
   "status": "partial",
   "theorems": [
    "Verif.TextGen.C45_no_context_partial",
    "Verif.TextGen.C45_context_partial",
    "Verif.TextGen.C45_recall_violation",
    "Verif.TextGen.C45_unhashable_violation",
    "Verif.TextGen.C45_digits_violation"
   ],
   "note": "False: three kinds of replies crash a guided metric whatever the number of retries. Without them, and with a client and JSON library that raise nothing else, every reply gives a metric."
  },
  {
   "property": "C46",
   "status": "proved",
   "theorems": [
    "Verif.TextGen.C46_outermost",
    "Verif.TextGen.C46_fails",
    "Verif.TextGen.C46_prose"
   ],
   "note": "Backtracking search for the pattern, on all strings."
  },
  {
   "property": "C47",
   "status": "partial",
   "theorems": [
    "Verif.TextGen.C47_first",
    "Verif.TextGen.C47_none",
    "Verif.TextGen.C47_value_partial",
    "Verif.TextGen.C47_long_violation"
   ],
   "note": "The match is exact for all strings and every digit table; the conversion raises ValueError for more than 4300 digits."
  },
  {
   "property": "C48",
   "status": "proved",
   "theorems": [
    "Verif.TextGen.C48_tokens",
    "Verif.TextGen.C48_monotone",
    "Verif.TextGen.C48_reply"
   ],
   "note": "All histories of API replies and API errors."
  },
  {
   "property": "C49",
   "status": "partial",
   "theorems": [
    "Verif.Metadata.C49_det_reserved_partial",
    "Verif.Metadata.C49_reserved_violation",
    "Verif.Metadata.C49_retry_violation",
    "Verif.Metadata.C49_cls_reserved",
    "Verif.Metadata.C49_seg_reserved",
    "Verif.Metadata.C49_no_shadow",
    "Verif.Metadata.C49_det_roundtrip",
    "Verif.Metadata.C49_cls_roundtrip",
    "Verif.Metadata.C49_cls_sortable",
    "Verif.Metadata.C49_seg_roundtrip",
    "Verif.Metadata.C49_restored_partial",
    "Verif.Metadata.C49_restored_strings",
    "Verif.Metadata.C49_types_violation",
    "Verif.Metadata.C49_duplicates",
    "Verif.Metadata.C49_reuse",
    "Verif.Metadata.C49_reuse_violation"
   ],
   "note": "False for the field name iou_prev in detection: the detailed cache is already created when it is rejected, and the path can then not be used again. Types given as pa.DataType come back as strings. Otherwise proved for the three evaluators; pyarrow's type printing and alias table are arbitrary parameters."
  },
  {
   "property": "C59",
   "status": "partial",
   "theorems": [
    "Verif.Detection.C59_same_choice_partial",
    "Verif.Detection.C59_entry_counts",
    "Verif.Detection.C59_matrix_counts",
    "Verif.Detection.C59_multi_label_violation"
   ],
   "note": "False for a prediction with several labels: the same pair is listed as true positive, false negative and false positive (C59_multi_label_violation). With one label per prediction the entries are exact and add up. The counts of the matrix with examples hold for any number of labels."
  },
  {
   "property": "C60",
   "status": "partial",
   "theorems": [
    "Verif.Detection.C60_report",
    "Verif.Detection.C60_single",
    "Verif.Detection.C60_f1_partial",
    "Verif.Detection.C60_f1_violation",
    "Verif.Detection.C60_range_partial",
    "Verif.Detection.C60_no_thresholds",
    "Verif.Detection.C60_no_labels_violation",
    "Verif.Detection.C60_end_to_end"
   ],
   "note": "The report is exact, for every cache the loader writes. False in two corners: F1 is set to 0 by the epsilon guard when precision plus recall is tiny (10^9 predictions and more), and for an empty cache mean average recall is NaN while mean average precision is 0."
  },
  {
   "property": "C61",
   "status": "proved",
   "theorems": [
    "Verif.Detection.C61_score_curve",
    "Verif.Detection.C61_level_zero",
    "Verif.Detection.C61_monotone"
   ],
   "note": "C61_level_zero: at level 0 the score is the highest of all predictions, also wrong ones."
  },
  {
   "property": "C62",
   "status": "proved",
   "theorems": [
    "Verif.Detection.C62_report",
    "Verif.Detection.C62_single",
    "Verif.Detection.C62_end_to_end"
   ],
   "note": "Array-level loop over all thresholds, including the order of the metrics and one cell per pair of labels."
  },
  {
   "property": "C63",
   "status": "partial",
   "theorems": [
    "Verif.Detection.C63_isolated_partial",
    "Verif.Detection.C63_blocked_violation",
    "Verif.Detection.C63_shared_violation",
    "Verif.Detection.C63_violation"
   ],
   "note": "False in both directions when annotations compete: the counts assign a prediction to the ground truth of its label that it overlaps most, the matrix assigns greedily by score before thresholds are applied. Equal when no annotation overlaps two annotations of the other side."
  },
  {
   "property": "C64",
   "status": "proved",
   "theorems": [
    "Verif.Classification.C64_examples",
    "Verif.Classification.C64_matrix_with_examples",
    "Verif.Classification.C64_report",
    "Verif.Classification.C64_confusion_matrix",
    "Verif.Classification.C64_datums_report",
    "Verif.Classification.C64_datums_confusion_matrix",
    "Verif.Classification.C64_datums_matrix_with_examples",
    "Verif.Classification.C64_rocauc",
    "Verif.Classification.C64_empty"
   ],
   "note": "F1 as a quotient of counts under the bound of C16; the numbers of the k-th matrix are those of the running maximum (C18)."
  },
  {
   "property": "C65",
   "status": "proved",
   "theorems": [
    "Verif.Segmentation.C65_report",
    "Verif.Segmentation.C65_filtered_report",
    "Verif.Segmentation.C65_datums_report",
    "Verif.Segmentation.C65_no_labels",
    "Verif.Segmentation.C65_reload_violation"
   ],
   "note": "C65_reload_violation: an evaluator that takes its labels from a filtered cache can raise a KeyError (outside the claim; the documented override avoids it)."
  },
  {
   "property": "C66",
   "status": "partial",
   "theorems": [
    "Verif.Cache.C66_tables_with_arrays",
    "Verif.Cache.C66_arrays",
    "Verif.Cache.C66_numeric_required",
    "Verif.Cache.C66_violation"
   ],
   "note": "False when numeric_columns is left out although it is documented as optional: iterate_tables_with_arrays then raises for every cache with a table. Otherwise exact. Python's set order is an arbitrary parameter."
  },
  {
   "property": "C67",
   "status": "partial",
   "theorems": [
    "Verif.Cache.C67_count_rows_file",
    "Verif.Cache.C67_count_rows_mem",
    "Verif.Cache.C67_count_tables",
    "Verif.Cache.C67_count_tables_mem",
    "Verif.Cache.C67_shortcut",
    "Verif.Cache.C67_count_violation",
    "Verif.Cache.C67_sort_file",
    "Verif.Cache.C67_sort_mem",
    "Verif.Cache.C67_interleaved",
    "Verif.Cache.C67_sort_last",
    "Verif.Cache.C67_sort_violation"
   ],
   "note": "False for directory names that are glob patterns (see C51): sort_by then does not find the files and count_tables counts those of other caches. The shortcut of the external sort is safe even then (C67_shortcut)."
  },
  {
   "property": "C68",
   "status": "proved",
   "theorems": [
    "Verif.TextGen.C68_cover",
    "Verif.TextGen.C68_split",
    "Verif.TextGen.C68_word",
    "Verif.TextGen.C68_price",
    "Verif.TextGen.C68_punctuation",
    "Verif.TextGen.C68_layout",
    "Verif.TextGen.C68_periods",
    "Verif.TextGen.C68_trailing",
    "Verif.TextGen.C68_result",
    "Verif.TextGen.C68_bleu",
    "Verif.TextGen.C68_rouge"
   ],
   "note": "The scoring libraries and the Unicode tables are parameters; assumed of the tables: separators are neither word characters nor digits, the dollar sign is no white space."
  },
  {
   "property": "C69",
   "status": "partial",
   "theorems": [
    "Verif.TextGen.C69_entries",
    "Verif.TextGen.C69_all_partial",
    "Verif.TextGen.C69_violation"
   ],
   "note": "False exactly when the predicted context is empty: hallucination then raises ValueError and all other metrics are lost."
  },
  {
   "property": "C70",
   "status": "proved",
   "theorems": [
    "Verif.TextGen.C70_validate",
    "Verif.TextGen.C70_rejects",
    "Verif.TextGen.C70_sends",
    "Verif.TextGen.C70_package",
    "Verif.TextGen.C70_mistral"
   ],
   "note": ""
  },
  {
   "property": "C71",
   "status": "proved",
   "theorems": [
    "Verif.TextGen.C71_answer_correctness",
    "Verif.TextGen.C71_answer_relevance",
    "Verif.TextGen.C71_bias",
    "Verif.TextGen.C71_toxicity",
    "Verif.TextGen.C71_context_precision",
    "Verif.TextGen.C71_context_recall",
    "Verif.TextGen.C71_context_relevance",
    "Verif.TextGen.C71_faithfulness",
    "Verif.TextGen.C71_hallucination",
    "Verif.TextGen.C71_summary_coherence"
   ],
   "note": "Exact (iff) for every world; nonnegative retries (negative: C41_negative_violation). The wording of the prompts is not modelled."
  },
  {
   "property": "C72",
   "status": "proved",
   "theorems": [
    "Verif.Float.C72_ratio_range",
    "Verif.Float.C72_ratio_exact",
    "Verif.Float.C72_f1",
    "Verif.Float.C72_f1_one",
    "Verif.Float.C72_classification",
    "Verif.Float.C72_accuracy",
    "Verif.Float.C72_detection",
    "Verif.Float.C72_mean",
    "Verif.Float.C72_ap",
    "Verif.Float.C72_ap_error",
    "Verif.Float.C72_bbox",
    "Verif.Float.C72_bitmask",
    "Verif.Float.C72_segmentation",
    "Verif.Float.C72_text",
    "Verif.Float.C72_f1_error",
    "Verif.Float.C72_f1_counts",
    "Verif.Float.C72_segmentation_values",
    "Verif.Float.C72_answer_f1",
    "Verif.Float.C72_mean_error",
    "Verif.Float.C72_context_precision"
   ],
   "note": "IEEE doubles (nearest even, gradual underflow, no overflow) in the code's order of operations; sums in any order."
  },
  {
   "property": "C73",
   "status": "partial",
   "theorems": [
    "Verif.Float.C73_decimals",
    "Verif.Float.C73_mask",
    "Verif.Float.C73_box",
    "Verif.Float.C73_iou_error",
    "Verif.Float.C73_margin",
    "Verif.Float.C73_decimal_violation"
   ],
   "note": "Proved for score literals, masks and integer boxes; for all boxes with double coordinates a decision flips only within 2^-47 of the threshold; false for boxes with decimal coordinates (witness)."
  },
  {
   "property": "C74",
   "status": "partial",
   "theorems": [
    "Verif.Float.C74_range_partial",
    "Verif.Float.C74_statistic_partial",
    "Verif.Float.C74_above_violation",
    "Verif.Float.C74_perfect_violation"
   ],
   "note": "Nonnegative, at most (1+2^-53)^(n+1), within (n+1)/2^50 of the exact area and of the statistic; can exceed 1, and a perfect ranking can be below 1 (witnesses)."
  },
  {
   "property": "C75",
   "status": "partial",
   "theorems": [
    "Verif.Detection.C75_counts",
    "Verif.Detection.C75_confusion",
    "Verif.Detection.C75_ap_partial",
    "Verif.Detection.C75_ap_violation",
    "Verif.Detection.C75_violation"
   ],
   "note": "Proved for all counts and the confusion matrix; curve and average precision when predictions of the label in different images have different scores. False with equal scores: the order of adding breaks the tie (average precision 1 or 1/2 for the same two images)."
  },
  {
   "property": "C76",
   "status": "proved",
   "theorems": [
    "Verif.Classification.C76_classification",
    "Verif.Classification.C76_confusion_matrix",
    "Verif.Segmentation.C76_segmentation"
   ],
   "note": "Classifications without predictions are rejected by the loader; the theorem is about the accepted ones. ROC areas: C76_rocauc_partial, under C22."
  },
  {
   "property": "C77",
   "status": "partial",
   "theorems": [
    "Verif.Float.C77_bin",
    "Verif.Float.C77_average_precision_partial",
    "Verif.Float.C77_violation"
   ],
   "note": "The double bin is the exact bin except at the recalls 0.29, 0.57 and 0.58, which need a number of ground truths divisible by 50. Otherwise the value is within 2^-44 of the mean; there it can be lower by at most 1/101. Witness: 29 of 50 objects found gives 58/101 instead of 59/101."
  },
  {
   "property": "C78",
   "status": "partial",
   "theorems": [
    "Verif.TextGen.C78_injective_partial",
    "Verif.TextGen.C78_violation"
   ],
   "note": "Proved for all kinds except context precision and summary coherence; for those, the prompts are equal only if both free texts differ and a first text has a line break (witnesses)."
  },
  {
   "property": "C79",
   "status": "proved",
   "theorems": [
    "Verif.TextGen.C79_exact",
    "Verif.TextGen.C79_unambiguous",
    "Verif.TextGen.C79_plain",
    "Verif.TextGen.C79_last",
    "Verif.TextGen.C79_fails",
    "Verif.TextGen.C79_tame"
   ],
   "note": "json.loads is modelled and proved equivalent to a grammar of JSON texts (with NaN and Infinity, which Python accepts)."
  },
  {
   "property": "C80",
   "status": "partial",
   "theorems": [
    "Verif.TextGen.C80_strings_partial",
    "Verif.TextGen.C80_correctness_partial",
    "Verif.TextGen.C80_verdicts_partial",
    "Verif.TextGen.C80_not_json_violation",
    "Verif.TextGen.C80_key_violation",
    "Verif.TextGen.C80_error_violation"
   ],
   "note": "Holds for seven of twelve prompts. The examples for bias, context relevance and faithfulness have a trailing comma, those for context precision and context recall have the key reason instead of analysis."
  },
  {
   "property": "C81",
   "status": "partial",
   "theorems": [
    "Verif.Classification.C81_classification",
    "Verif.Classification.C81_recall_partial",
    "Verif.Classification.C81_recall_violation",
    "Verif.Classification.C81_winner_violation",
    "Verif.Detection.C81_tp_partial",
    "Verif.Detection.C81_fp_partial",
    "Verif.Detection.C81_predictions",
    "Verif.Detection.C81_metrics_partial",
    "Verif.Detection.C81_average_precision_partial",
    "Verif.Detection.C81_confusion_matrix",
    "Verif.Detection.C81_zero_violation"
   ],
   "note": "Classification counts, accuracy and the detection confusion matrix: all inputs. Detection counts and metrics: positive IoU thresholds (with threshold 0 nothing is found, witness proved). Classification recall: winner-take-all with the ground truth among the predictions; false otherwise (witnesses: recall rises from 1/2 to 1 when the score threshold is raised)."
  },
  {
   "property": "C82",
   "status": "partial",
   "theorems": [
    "Verif.Detection.C82_counts_partial",
    "Verif.Detection.C82_average_precision_partial",
    "Verif.Detection.C82_report_partial",
    "Verif.Detection.C82_boxes",
    "Verif.Detection.C82_bitmasks",
    "Verif.Detection.C82_twins_violation",
    "Verif.Classification.C82_classification_report",
    "Verif.Classification.C82_classification_accuracy",
    "Verif.Classification.C82_rocauc_partial",
    "Verif.Classification.C82_rocauc",
    "Verif.Segmentation.C82_segmentation_accuracy",
    "Verif.Segmentation.C82_segmentation_report",
    "Verif.Segmentation.C82_empty_mask_violation"
   ],
   "note": "Classification and segmentation: exact, for all data. Detection: full reports, provided that ground truths of one label on one image do not coincide (otherwise false: two identical ground truths predicted twice get recall 1/2, witness proved), for boxes of area at least 1e-9 and non-empty bitmasks. A label that has empty masks only has IoU 0 (witness proved). ROC area: for scores that are not negative, every division of the caches (C82_rocauc)."
  },
  {
   "property": "C83",
   "status": "proved",
   "theorems": [
    "Verif.Cache.C83_largest",
    "Verif.Cache.C83_smallest"
   ],
   "note": "The upper bound is reached (example). With write_table or explicit flushes smaller files are possible, by design of flush."
  },
  {
   "property": "C84",
   "status": "proved",
   "theorems": [
    "Verif.Classification.C84_classification_counts",
    "Verif.Classification.C84_classification_accuracy",
    "Verif.Classification.C84_classification_confusion",
    "Verif.Classification.C84_classification_copies",
    "Verif.Detection.C84_detection_counts",
    "Verif.Detection.C84_detection_confusion",
    "Verif.Detection.C84_detection_copies",
    "Verif.Segmentation.C84_segmentation_matrix",
    "Verif.Segmentation.C84_segmentation_copies"
   ],
   "note": "Confusion matrices of classification and detection are taken at one threshold at a time (C18). Average precision and ROC AUC are not additive; for copies see C105."
  },
  {
   "property": "C85",
   "status": "proved",
   "theorems": [
    "Verif.Classification.C85_classification",
    "Verif.Detection.C85_detection",
    "Verif.Detection.C85_average_precision",
    "Verif.Segmentation.C85_segmentation"
   ],
   "note": "Average precision: detections in the same order (for other orders see C75). ROC AUC depends on the positives and negatives of a label only where C21 applies and is not repeated here."
  },
  {
   "property": "C86",
   "status": "partial",
   "theorems": [
    "Verif.Classification.C86_classification",
    "Verif.Classification.C86_rocauc_partial",
    "Verif.Classification.C86_violation",
    "Verif.Detection.C86_detection",
    "Verif.Detection.C86_average_precision"
   ],
   "note": "Scores under 1e-8 (classification) or 1e-9 (detection) count as zero, so the scale must move no score across these bounds; otherwise false (witness: scores divided by ten lose the true positive). Detection: no negative scores. ROC area: under the conditions of C21."
  },
  {
   "property": "C87",
   "status": "proved",
   "theorems": [
    "Verif.Segmentation.C87_segmentation"
   ],
   "note": "Rearrangements are functions from the new pixels to the old ones that hit every pixel equally often; turning by 180 degrees and enlarging are proved instances."
  },
  {
   "property": "C88",
   "status": "partial",
   "theorems": [
    "Verif.Metadata.C88_steps",
    "Verif.Metadata.C88_first_step",
    "Verif.Metadata.C88_creation",
    "Verif.Metadata.C88_leftover_violation",
    "Verif.Detection.C88_detection_partial",
    "Verif.Detection.C88_detection_understates",
    "Verif.Detection.C88_detection_violation",
    "Verif.Classification.C88_classification_partial",
    "Verif.Classification.C88_classification_violation",
    "Verif.Segmentation.C88_segmentation"
   ],
   "note": "Proved for creation at a path without a metadata.json and for segmentation. False for detection and classification when finalize is interrupted (load succeeds; true positives or ROCAUC are understated silently) and for a path where an old metadata.json was left."
  },
  {
   "property": "C89",
   "status": "partial",
   "theorems": [
    "Verif.Detection.C89_found",
    "Verif.Detection.C89_label_partial",
    "Verif.Detection.C89_violation",
    "Verif.Detection.C89_ap_partial",
    "Verif.Detection.C89_ap_violation"
   ],
   "note": "Average precision: proved for different scores, false for equal ones (ties are ranked by the IoU with ground truths of any label). Ground truths, true positives, false negatives and recall: proved for all predictions without repeated labels. False positives, precision and F1: proved for predictions with one label; false for predictions with several labels (a label of a prediction is not counted as false positive when another label of it overlaps a ground truth)."
  },
  {
   "property": "C90",
   "status": "proved",
   "theorems": [
    "Verif.Detection.C90_more",
    "Verif.Detection.C90_one_more",
    "Verif.Detection.C90_duplicate",
    "Verif.Detection.C90_f1",
    "Verif.Detection.C90_ap"
   ],
   "note": "C90_ap for different scores. Predictions without repeated labels; up to 100000 labels and 2^31 ids."
  },
  {
   "property": "C91",
   "status": "partial",
   "theorems": [
    "Verif.Detection.C91_predictions",
    "Verif.Detection.C91_ap",
    "Verif.Detection.C91_order_partial",
    "Verif.Detection.C91_violation"
   ],
   "note": "C91_ap for different scores. Order of predictions: proved. Order of ground truths: proved when no prediction overlaps two ground truths of its label equally; false otherwise (the first one listed is taken)."
  },
  {
   "property": "C92",
   "status": "partial",
   "theorems": [
    "Verif.Detection.C92_above",
    "Verif.Detection.C92_ap_above",
    "Verif.Detection.C92_curve_partial",
    "Verif.Detection.C92_violation"
   ],
   "note": "Points never lie above the curve: proved for all data. The curve is attained by the points: proved when no two predictions give the label the same score; false with equal scores, which the curve ranks by IoU (witness). Positive IoU thresholds; exact arithmetic (the recall bin in doubles is C29/C77)."
  },
  {
   "property": "C93",
   "status": "partial",
   "theorems": [
    "Verif.Detection.C93_moved",
    "Verif.Detection.C93_mirrored",
    "Verif.Detection.C93_transposed",
    "Verif.Detection.C93_scaled_partial",
    "Verif.Detection.C93_scale_violation",
    "Verif.Detection.C93_bitmask",
    "Verif.Detection.C93_enlarged",
    "Verif.Detection.C93_raster",
    "Verif.Detection.C93_dataset",
    "Verif.Detection.C93_units_partial",
    "Verif.Detection.C93_units_violation"
   ],
   "note": "Everything but the change of units: proved for all boxes and masks. Change of units: proved in exact arithmetic for unions of at least 1e-9 in both units; false below (equal boxes with sides 0.00003 have IoU 0) and, at the threshold itself, false in double precision (witnesses)."
  },
  {
   "property": "C94",
   "status": "partial",
   "theorems": [
    "Verif.Detection.C94_detection",
    "Verif.Detection.C94_detection_order",
    "Verif.Detection.C94_detection_again",
    "Verif.Detection.C94_detection_partial",
    "Verif.Detection.C94_detection_violation",
    "Verif.Detection.C94_doubled_violation",
    "Verif.Classification.C94_classification_partial",
    "Verif.Classification.C94_classification_violation",
    "Verif.Segmentation.C94_segmentation_partial",
    "Verif.Segmentation.C94_segmentation_matrix_partial",
    "Verif.Segmentation.C94_segmentation_violation"
   ],
   "note": "Proved for conditions that look at their own side only (datum uid, uid and label of a ground truth, uid, label and score of a prediction), for every layout of the caches; for detection from the annotations, if no prediction lists a label twice. False for conditions on one side that look at columns of the other side, and for a label listed twice with different scores (witnesses). Cache contents are compared as multisets of rows; for segmentation also the confusion matrix."
  },
  {
   "property": "C95",
   "status": "partial",
   "theorems": [
    "Verif.Detection.C95_toDict",
    "Verif.Detection.C95_values",
    "Verif.Detection.C95_detection",
    "Verif.Classification.C95_classification",
    "Verif.Classification.C95_matrix_partial",
    "Verif.Classification.C95_matrix_violation",
    "Verif.Segmentation.C95_segmentation"
   ],
   "note": "Proved for the precision/recall reports of all three tasks, also with repeated thresholds; the segmentation and (with distinct thresholds) detection reports have no two entries with the same type and parameters. For classification confusion matrices proved if the thresholds do not decrease and false otherwise (thresholds 0, 1/2, 0 give two matrices with the same parameters and different values). Example metrics are one per datum and carry the datum id in the value, so they are not covered by this claim."
  },
  {
   "property": "C96",
   "status": "proved",
   "theorems": [
    "Verif.Detection.C96_compare",
    "Verif.Detection.C96_detection",
    "Verif.Detection.C96_sharp"
   ],
   "note": "Doubles by the rounding function of Verif.Shared.Double; the bound is sharp (2^53 + 1 is rounded). Overflow of astype is not modelled (ids are far below 2^63)."
  },
  {
   "property": "C97",
   "status": "partial",
   "theorems": [
    "Verif.Detection.C97_detection_partial",
    "Verif.Detection.C97_detection_values",
    "Verif.Detection.C97_datums_violation",
    "Verif.Detection.C97_rows_violation",
    "Verif.Segmentation.C97_segmentation_partial",
    "Verif.Segmentation.C97_segmentation_violation",
    "Verif.Segmentation.C97_segmentation_rows_violation",
    "Verif.Classification.C97_classification_partial",
    "Verif.Classification.C97_classification_rows_violation"
   ],
   "note": "Proved: ground truths, predictions and labels of detection for any conditions; pixels and labels of segmentation for any conditions, ground truth and prediction pixels for conditions that look at their own side only; datums of classification (get_info takes datum conditions only), of detection if each image keeps an annotation (otherwise an upper bound), of segmentation if the tables stay as they are. False otherwise (witnesses): number_of_rows ignores the conditions, number_of_datums of detection counts images without annotations left, ground truth pixels of segmentation under conditions on predictions."
  },
  {
   "property": "C98",
   "status": "proved",
   "theorems": [
    "Verif.TextGen.C98_requests",
    "Verif.TextGen.C98_all",
    "Verif.TextGen.C98_exact",
    "Verif.TextGen.C98_seeded",
    "Verif.TextGen.C98_unseeded",
    "Verif.TextGen.C98_names"
   ],
   "note": "Requests are counted by an arbitrary counter of the LLM's state that each call raises by one. The bound holds for negative retries too (no attempt). Requests that the client library repeats on its own are one request here."
  },
  {
   "property": "C99",
   "status": "partial",
   "theorems": [
    "Verif.Classification.C99_classification_raises",
    "Verif.Classification.C99_classification_refused",
    "Verif.Classification.C99_classification_partial",
    "Verif.Classification.C99_gap",
    "Verif.Classification.C99_classification_violation",
    "Verif.Segmentation.C99_segmentation",
    "Verif.Segmentation.C99_segmentation_partial",
    "Verif.Segmentation.C99_segmentation_violation",
    "Verif.Detection.C99_detection_partial",
    "Verif.Detection.C99_detection_confusion",
    "Verif.Detection.C99_detection_gap",
    "Verif.Detection.C99_detection_violation"
   ],
   "note": "Proved if every label of a refused datum occurs in an accepted one; for detection also if such labels got no id below that of an accepted label, and the confusion counts in every case. False otherwise: labels left behind make finalize (classification) or every request for metrics (detection) raise, and enter the mean IoU of segmentation as zeros."
  },
  {
   "property": "C100",
   "status": "proved",
   "theorems": [
    "Verif.Detection.C100_boxes",
    "Verif.Detection.C100_polygons",
    "Verif.Detection.C100_bitmasks",
    "Verif.Detection.C100_overlap",
    "Verif.Detection.C100_motion",
    "Verif.Detection.C100_rectangles",
    "Verif.Detection.rectangles_exact"
   ],
   "note": "Areas are Lebesgue measures of the regions. shapely is an argument of the model: intersection and union may raise, and where they do not their areas are exact (Shapely.Exact, met by a library for rectangles). Coordinates are exact rationals; what rounding does to the bounding box formula is C73."
  },
  {
   "property": "C101",
   "status": "partial",
   "theorems": [
    "Verif.Classification.C101_classification",
    "Verif.Detection.C101_groundtruths_partial",
    "Verif.Detection.C101_groundtruths_violation",
    "Verif.Detection.C101_predictions_partial",
    "Verif.Detection.C101_predictions_violation",
    "Verif.Detection.C101_datums_partial",
    "Verif.Detection.C101_datums_violation",
    "Verif.Segmentation.C101_segmentation_partial",
    "Verif.Segmentation.C101_segmentation_violation",
    "Verif.Segmentation.C101_repeated_violation"
   ],
   "note": "Proved for classification. False for detection and segmentation where both annotations of a pair, or the datum and an annotation, have the field (witnesses): the row of the pair holds one value only. Proved for all fields where this does not happen."
  },
  {
   "property": "C102",
   "status": "partial",
   "theorems": [
    "Verif.Segmentation.C102_independent",
    "Verif.Segmentation.C102_pixels",
    "Verif.Segmentation.C102_violation"
   ],
   "note": "False where segmentations share an array and masks of one of them overlap: the constructor clears pixels of the shared array (witness). Proved where no two segmentations share an array, and, with any sharing, where the masks of each side are disjoint."
  },
  {
   "property": "C103",
   "status": "partial",
   "theorems": [
    "Verif.Cache.C103_memory",
    "Verif.Cache.C103_files",
    "Verif.Cache.C103_files_partial",
    "Verif.Cache.C103_files_violation",
    "Verif.Segmentation.C103_segmentation_memory",
    "Verif.Segmentation.C103_segmentation_files",
    "Verif.Segmentation.C103_segmentation_violation",
    "Verif.Detection.C103_detection_violation"
   ],
   "note": "True in memory. False of files: the reader follows the writer, so the evaluator raises, or takes in later data with the old labels and the old ranking (witnesses). Proved for files as long as the later rows stay in the buffer, and which rows are shown otherwise."
  },
  {
   "property": "C104",
   "status": "proved",
   "theorems": [
    "Verif.Segmentation.C104_exchanged"
   ],
   "note": ""
  },
  {
   "property": "C105",
   "status": "partial",
   "theorems": [
    "Verif.Detection.C105_ap_partial",
    "Verif.Detection.C105_scores",
    "Verif.Detection.C105_ap_violation",
    "Verif.Classification.C105_rocauc_partial",
    "Verif.Classification.C105_rocauc_violation"
   ],
   "note": "False of the code if two predictions of the dataset give a label the same score: two predictions that find the same object with equal score and IoU are ranked hit, miss, and twice the dataset ranks hit, miss, hit, miss (average precision 0.835 instead of 1). ROC areas under the conditions of C21, C22. The scores of the curve at recall levels above 0 are proved without a condition on scores."
  },
  {
   "property": "C106",
   "status": "proved",
   "theorems": [
    "Verif.Detection.C106_counts",
    "Verif.Detection.C106_f1",
    "Verif.Detection.C106_ap"
   ],
   "note": "C106_ap for labels with different scores in the dataset."
  },
  {
   "property": "C107",
   "status": "partial",
   "theorems": [
    "Verif.Detection.C107_detection_partial",
    "Verif.Detection.C107_detection_gap",
    "Verif.Detection.C107_detection_violation",
    "Verif.Detection.C107_detection_missing_violation",
    "Verif.Classification.C107_classification_partial",
    "Verif.Classification.C107_classification_all_partial",
    "Verif.Classification.C107_classification_gap",
    "Verif.Classification.C107_classification_violation",
    "Verif.Classification.C107_classification_missing_violation",
    "Verif.Segmentation.C107_segmentation_partial",
    "Verif.Segmentation.C107_segmentation_gap",
    "Verif.Segmentation.C107_segmentation_missing_violation",
    "Verif.Shared.C50_override",
    "Verif.Detection.C88_detection_partial",
    "Verif.Segmentation.C65_reload_violation"
   ],
   "note": "With the documented override load gives the labels it is given. Without it: if a removed label has a lower id than a label that is left, every request raises; otherwise the metrics of the labels that are left are the same, those of removed labels are missing, and means are taken over fewer labels."
  },
  {
   "property": "C108",
   "status": "proved",
   "theorems": [
    "Verif.Detection.C108_detection",
    "Verif.Classification.C108_classification",
    "Verif.Segmentation.C108_segmentation"
   ],
   "note": ""
  },
  {
   "property": "C109",
   "status": "partial",
   "theorems": [
    "Verif.Classification.C109_range_partial",
    "Verif.Classification.C109_unscored_violation",
    "Verif.Classification.C109_filter_violation",
    "Verif.Classification.C109_twice_violation",
    "Verif.Classification.C109_unscored_exact"
   ],
   "note": "False of the code when a ground truth label is not among the predicted labels of its datum (area 4/3) or a label is predicted twice (area 2). Never negative, whatever was added. C109_unscored_exact gives the exact value when ground truths are unscored."
  },
  {
   "property": "C110",
   "status": "partial",
   "theorems": [
    "Verif.Detection.C110_confident",
    "Verif.Detection.C110_detection",
    "Verif.Detection.C110_f1",
    "Verif.Classification.C110_classification",
    "Verif.Classification.C110_classification_f1",
    "Verif.Classification.C110_rocauc_partial"
   ],
   "note": "ROCAUC under the conditions of C21 and C22, outside of which it is not the ranking statistic (C21_zero_violation, C22_cut_violation, C109_unscored_violation). The rest is proved as stated."
  },
  {
   "property": "C111",
   "status": "proved",
   "theorems": [
    "Verif.Segmentation.C111_segmentation"
   ],
   "note": "Exact arithmetic. Mean IoU for corrections that bring in no label."
  },
  {
   "property": "C112",
   "status": "proved",
   "theorems": [
    "Verif.Segmentation.C112_segmentation"
   ],
   "note": "Exact arithmetic."
  },
  {
   "property": "C113",
   "status": "proved",
   "theorems": [
    "Verif.Detection.C113_detection",
    "Verif.Detection.tighter_of_closer",
    "Verif.Detection.C113_violation"
   ],
   "note": "C113_violation proves the last sentence of the statement: growing overlaps alone can lose a true positive."
  },
  {
   "property": "C114",
   "status": "proved",
   "theorems": [
    "Verif.TextGen.C114_repeat",
    "Verif.TextGen.C114_answer_correctness",
    "Verif.TextGen.C114_context_recall",
    "Verif.TextGen.C114_more",
    "Verif.TextGen.C114_order",
    "Verif.TextGen.C114_precision_violation"
   ],
   "note": "C114_precision_violation proves the last sentence of the statement."
  },
  {
   "property": "C115",
   "status": "partial",
   "theorems": [
    "Verif.Detection.C115_exact",
    "Verif.Detection.C115_matching",
    "Verif.Detection.C115_order_partial",
    "Verif.Detection.C115_violation"
   ],
   "note": "Exact counts and uniqueness are proved as stated; the partial theorem is about the order of listing without ties, as stated. With ties the order matters (witness)."
  },
  {
   "property": "C116",
   "status": "proved",
   "theorems": [
    "Verif.Detection.C116_transpose"
   ],
   "note": ""
  },
  {
   "property": "C117",
   "status": "proved",
   "theorems": [
    "Verif.Detection.C117_counts",
    "Verif.Detection.C117_confusion",
    "Verif.Detection.C117_overlap_violation"
   ],
   "note": "C117_overlap_violation proves the last sentence of the statement."
  },
  {
   "property": "C118",
   "status": "partial",
   "theorems": [
    "Verif.Classification.C118_micro",
    "Verif.Classification.C118_precision",
    "Verif.Classification.C118_weighted_partial",
    "Verif.Classification.C118_weighted_exact",
    "Verif.Classification.C118_violation",
    "Verif.Classification.C118_two"
   ],
   "note": "Weighted recall: proved if every datum scores its ground truth; false otherwise, since such a datum drops out of the recall of its label when its winner is below the threshold (witness: recall 1, accuracy 1/2). In general the weights are the datums that score their ground truth or have a score that reaches the threshold (C118_weighted_exact). The rest is proved as stated."
  },
  {
   "property": "C119",
   "status": "proved",
   "theorems": [
    "Verif.TextGen.C119_more",
    "Verif.TextGen.C119_steady",
    "Verif.TextGen.C119_all"
   ],
   "note": ""
  },
  {
   "property": "C120",
   "status": "proved",
   "theorems": [
    "Verif.Detection.C120_report"
   ],
   "note": "For the whole report, from the add calls. Lower bound for every score threshold, upper bounds for those that leave out no prediction of the label (scores up to 1e-9 count as 0). Exact arithmetic; the recall bin in doubles is C29/C77."
  },
  {
   "property": "C121",
   "status": "partial",
   "theorems": [
    "Verif.Classification.C121_two_classes_partial",
    "Verif.Classification.C121_reversed_partial",
    "Verif.Classification.C121_violation"
   ],
   "note": "Proved where the area is the statistic of C21 (highest score of the label not 0; curve not cut right after the first row of the label or no tie there, C22). False otherwise: a classifier that always gives one class 1 and the other 0 gets areas 1/2 and 0."
  },
  {
   "property": "C122",
   "status": "partial",
   "theorems": [
    "Verif.Detection.C122_counts_partial",
    "Verif.Detection.C122_only_partial",
    "Verif.Detection.C122_curve_partial",
    "Verif.Detection.C122_only_curve_partial",
    "Verif.Detection.C122_matrix_partial",
    "Verif.Detection.C122_only_matrix_partial",
    "Verif.Detection.C122_doubled_violation"
   ],
   "note": "Proved for datasets whose predictions list no label twice. False otherwise: of a prediction that lists a label with the scores 9/10 and 1/10 a condition that selects only the second keeps both."
  },
  {
   "property": "C123",
   "status": "partial",
   "theorems": [
    "Verif.Classification.C123_counts_partial",
    "Verif.Classification.C123_matrix_partial",
    "Verif.Classification.C123_rocauc_partial",
    "Verif.Classification.C123_score_keeps",
    "Verif.Classification.C123_hardmax_violation",
    "Verif.Classification.C123_doubled_violation"
   ],
   "note": "Proved without hardmax, and with hardmax if the top prediction of each selected classification is kept unless none is (always so for score conditions), for classifications that predict no label twice. False otherwise: the winner flag is not recomputed, so with hardmax a datum whose top prediction is filtered out has no winner; and a label predicted twice is kept or dropped as a whole. ROC areas agree for labels that every selected classification with that ground truth still scores (see C21, C22, C109 for the rest)."
  },
  {
   "property": "C124",
   "status": "partial",
   "theorems": [
    "Verif.Classification.C124_classification_partial",
    "Verif.Classification.C124_classification_violation",
    "Verif.Segmentation.C124_segmentation_partial",
    "Verif.Segmentation.C124_segmentation_violation",
    "Verif.Detection.C124_detection_partial",
    "Verif.Detection.C124_detection_violation"
   ],
   "note": "False of the code: filter hands the labels of the original to the filtered evaluator, so labels that lost all their data stay and count as zeros (witnesses: mean IoU 1/2 instead of 1, mAP 1/2 instead of 1, mean ROC area 2/3 instead of 1). Proved exactly: the sums over labels agree, they are divided by the number of labels of the original instead of the number left, so the means agree if no label is lost."
  },
  {
   "property": "C125",
   "status": "proved",
   "theorems": [
    "Verif.Detection.C125_detection",
    "Verif.Segmentation.C125_segmentation"
   ],
   "note": "Detection: the whole report as a multiset of metrics and every cell of the confusion matrix. Segmentation: the report, with the accuracy of both datasets in one formula. A classification always has a prediction, so there is no such case there."
  },
  {
   "property": "C126",
   "status": "proved",
   "theorems": [
    "Verif.Segmentation.C126_weighted",
    "Verif.Segmentation.C126_between"
   ],
   "note": "For the whole report, from the add calls. Exact arithmetic."
  },
  {
   "property": "C127",
   "status": "partial",
   "theorems": [
    "Verif.Classification.C127_accuracy",
    "Verif.Classification.C127_precision",
    "Verif.Classification.C127_recall_partial",
    "Verif.Classification.C127_f1_partial",
    "Verif.Classification.C127_violation"
   ],
   "note": "Accuracy and precision in general. Recall (and F1, up to 10^9 predictions) if no prediction lists a label twice and each datum scores its ground truth or has a score that reaches the threshold; false if the parts are listed side by side under the new name: such a datum is counted as found and as missed, and recall 1 becomes 1/2."
  },
  {
   "property": "C128",
   "status": "partial",
   "theorems": [
    "Verif.Classification.C128_right_partial",
    "Verif.Classification.C128_wrong",
    "Verif.Classification.C128_soft_right_partial",
    "Verif.Classification.C128_soft_wrong",
    "Verif.Classification.C128_violation"
   ],
   "note": "Correct datums: proved if the datum lists no label twice; false otherwise (a datum that lists its ground truth twice is counted as found and as missed, recall 1 becomes 2/3). Other datums: proved in general. The soft theorems are those without hardmax (the right one for predictions that list no label twice)."
  },
  {
   "property": "C129",
   "status": "partial",
   "theorems": [
    "Verif.Segmentation.C129_right_partial",
    "Verif.Segmentation.C129_wrong",
    "Verif.Segmentation.C129_violation"
   ],
   "note": "Everything proved except the mean IoU for images with an empty mask: such a mask with a new label gets IoU 0 and lowers the mean although every pixel is right (C129_violation)."
  },
  {
   "property": "C130",
   "status": "proved",
   "theorems": [
    "Verif.Detection.C130_recall",
    "Verif.Detection.C130_precision",
    "Verif.Detection.C130_f1",
    "Verif.Detection.C130_wrong"
   ],
   "note": "Nearest ground truth and counted predictions as in C54_exact; ground truths carry exactly one label, predictions list no label twice."
  },
  {
   "property": "C131",
   "status": "proved",
   "theorems": [
    "Verif.Classification.C131_classification",
    "Verif.Classification.C131_classification_accuracy",
    "Verif.Classification.C131_classification_f1_partial",
    "Verif.Detection.C131_detection",
    "Verif.Detection.C131_detection_f1_partial",
    "Verif.Segmentation.C131_segmentation",
    "Verif.Segmentation.C131_accuracy"
   ],
   "note": "F1 of classification and detection is claimed (and proved) up to 10^9 predictions: beyond that the guard against small sums reports 0 (C16, C60_f1_violation)."
  },
  {
   "property": "C132",
   "status": "partial",
   "theorems": [
    "Verif.Classification.C132_positive_partial",
    "Verif.Classification.C132_negative_partial",
    "Verif.Classification.C132_extreme_partial",
    "Verif.Classification.C132_unscored_partial",
    "Verif.Classification.C132_violation"
   ],
   "note": "False for a label that always scored 0 (C132_violation; C21_zero_violation) and for curves cut right after the first row of a label that has a tie of a positive and a negative at its highest score (C22)."
  },
  {
   "property": "C133",
   "status": "proved",
   "theorems": [
    "Verif.Classification.C133_scores",
    "Verif.Classification.C133_thresholds",
    "Verif.Detection.C133_detection_scores",
    "Verif.Detection.C133_detection_thresholds"
   ],
   "note": "Below the tolerance the first part is false: a score that counts as zero is never a prediction (C86_violation)."
  },
  {
   "property": "C134",
   "status": "proved",
   "theorems": [
    "Verif.Detection.C134_agree",
    "Verif.Detection.C134_between"
   ],
   "note": "In exact arithmetic: in double precision the order of averaging can change the last digits. Without labels mAR is NaN (C60_no_labels_violation)."
  },
  {
   "property": "C135",
   "status": "proved",
   "theorems": [
    "Verif.Classification.C135_one",
    "Verif.Classification.C135_probabilities"
   ],
   "note": "Exact scores; sums of probabilities in double precision are not modelled."
  }
 ]
}