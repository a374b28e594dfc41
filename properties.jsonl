{"id": "C01", "title": "On-disk cache returns exactly what was written, in order", "statement": "After any interleaving of write_rows, write_columns, write_batch, write_table and flush on a FileCacheWriter, followed by a flush, reading the cache back through a reader (fragments in their defined order) yields exactly the concatenation of all rows written, each once, in write order.", "quantifier": "every finite sequence of write/flush calls, every batch size and rows-per-file setting, every row content", "why_tests_cant": "The buffering and file roll-over logic has boundary cases at every multiple of batch_size and rows_per_file; tests fix one configuration and a handful of writes, never every interleaving.", "anchors": ["src/valor_lite/cache/persistent.py::FileCacheWriter.write_rows", "src/valor_lite/cache/persistent.py::FileCacheWriter.write_batch", "src/valor_lite/cache/persistent.py::FileCacheWriter.write_table", "src/valor_lite/cache/persistent.py::FileCacheWriter.flush", "src/valor_lite/cache/persistent.py::FileCacheReader.iterate_tables"]}
{"id": "C02", "title": "In-memory cache returns exactly what was written, in order", "statement": "After any interleaving of write and flush calls on a MemoryCacheWriter followed by a flush, the reader yields exactly the rows written, each once, in write order (so the in-memory and the on-disk caches are interchangeable).", "quantifier": "every finite sequence of write/flush calls, every batch size", "why_tests_cant": "Order only breaks for particular interleavings of buffered batches and whole-table writes; no finite test list covers all interleavings.", "anchors": ["src/valor_lite/cache/ephemeral.py::MemoryCacheWriter.write_batch", "src/valor_lite/cache/ephemeral.py::MemoryCacheWriter.write_table", "src/valor_lite/cache/ephemeral.py::MemoryCacheWriter.flush", "src/valor_lite/cache/ephemeral.py::MemoryCacheWriter.to_reader"]}
{"id": "C03", "title": "Bounded loss window and exact accounting before flush", "statement": "At any moment the rows visible to count_rows plus the rows still buffered are exactly the rows written so far, and the number of buffered rows stays below the configured batch size, so a process that dies without flushing loses fewer than batch_size rows in memory terms. On disk the complete files always hold a prefix of the rows written and fewer than batch_size + rows_per_file rows are outside them.", "quantifier": "every prefix of every history of write/flush calls, every positive batch size", "why_tests_cant": "It is a statement about every prefix (crash point) of every history, not about the end state of one run.", "anchors": ["src/valor_lite/cache/ephemeral.py::MemoryCacheWriter.write_batch", "src/valor_lite/cache/persistent.py::FileCacheWriter.write_batch", "src/valor_lite/cache/persistent.py::FileCacheWriter.flush", "src/valor_lite/cache/persistent.py::FileCache.count_rows"]}
{"id": "C04", "title": "A write_rows call is never split across files and files are never overwritten", "statement": "Rows handed over in one write_rows call always land in one single file, in order, contiguous; a new file never reuses the name of an existing one, and reading fragments by numeric name order is the order of creation. Hence all rows of a datum (which loaders write in one call) are in one fragment.", "quantifier": "every history of write/flush calls, every batch size and rows-per-file, every pre-existing set of files", "why_tests_cant": "Evaluators silently rely on it for per-fragment unique/ranking computations; it depends on the arithmetic of roll-over across arbitrary histories.", "anchors": ["src/valor_lite/cache/persistent.py::FileCacheWriter.write_batch", "src/valor_lite/cache/persistent.py::FileCacheWriter._generate_next_filename", "src/valor_lite/cache/persistent.py::FileCacheReader.iterate_ordered_fragments"]}
{"id": "C05", "title": "External sort produces a sorted permutation", "statement": "Sorting a cache into a new cache yields a sequence that is a permutation of the source rows and is ordered by the requested keys with the requested directions, for any number of source files and any batch size of the readers.", "quantifier": "every source (any number of fragments, any rows, any keys with ascending/descending directions), every batch size, on-disk sink or single-table source", "why_tests_cant": "A k-way heap merge is correct only by an invariant over the heap and the iterators; tests use small inputs and one batch size.", "anchors": ["src/valor_lite/cache/compute.py::sort", "src/valor_lite/cache/compute.py::_merge"]}
{"id": "C06", "title": "External sort is correct for every combination of source and sink kinds", "statement": "The result of sort is a sorted permutation of the source for every combination of in-memory/on-disk source and in-memory/on-disk sink.", "quantifier": "every source fragmentation and both sink kinds", "why_tests_cant": "The combination multi-file source with in-memory sink is not on the tested path; the failure needs two files whose ranges interleave.", "anchors": ["src/valor_lite/cache/compute.py::sort", "src/valor_lite/cache/compute.py::_merge", "src/valor_lite/cache/ephemeral.py::MemoryCacheReader.iterate_fragment_batch_iterators"]}
{"id": "C07", "title": "Sort result does not depend on batching", "statement": "The rows produced by sorting are the same sequence whatever the batch size used by the reader; ties are resolved by fragment and position only.", "quantifier": "every pair of batch sizes, every source", "why_tests_cant": "Quantifies over pairs of configurations for every input.", "anchors": ["src/valor_lite/cache/compute.py::_merge"]}
{"id": "C08", "title": "Pagination over the index partitions the data", "statement": "Walking the pages offset = 0, k, 2k, ... with limit k > 0 over a cache whose index keys are not split over fragments visits every row exactly once, in order; every page but the last covers exactly k distinct keys.", "quantifier": "every table layout with fragment-aligned increasing keys, every page size and every offset", "why_tests_cant": "The page boundaries fall at arbitrary positions relative to fragment boundaries; off-by-one errors show only for specific alignments.", "anchors": ["src/valor_lite/cache/compute.py::paginate_index"]}
{"id": "C09", "title": "Creating then loading a cache restores its configuration", "statement": "A cache directory created with a given batch size, rows per file and compression is loaded back with the same values.", "quantifier": "every configuration accepted by create", "why_tests_cant": "Quantifies over all configurations, including falsy values.", "anchors": ["src/valor_lite/cache/persistent.py::FileCacheWriter.create", "src/valor_lite/cache/persistent.py::FileCacheReader.load"]}
{"id": "C10", "title": "Cache creation is restartable after a crash", "statement": "Whatever the point at which a process dies inside create, a later create with delete_if_exists=True succeeds; create without it refuses to touch an existing path.", "quantifier": "every crash point inside create and delete, every prior directory state", "why_tests_cant": "Crash points cannot be enumerated by unit tests of the finished calls.", "anchors": ["src/valor_lite/cache/persistent.py::FileCacheWriter.create", "src/valor_lite/cache/persistent.py::FileCacheWriter.delete", "src/valor_lite/cache/persistent.py::FileCacheReader.load"]}
{"id": "C11", "title": "Deleting a cache removes only cache files", "statement": "delete on a cache directory removes the parquet files, the config file and the (then empty) directory and nothing else; if any other file is present it survives and the call reports an error; deleting a missing path is a no-op.", "quantifier": "every directory content and every crash point inside delete", "why_tests_cant": "Ranges over all directory states.", "anchors": ["src/valor_lite/cache/persistent.py::FileCacheWriter.delete"]}
{"id": "C12", "title": "Classification loader assigns consistent dense ids and one winner per datum", "statement": "After any sequence of add_data calls: label ids are exactly 0..n-1, equal labels always share an id and different labels never do; datum ids are distinct; each datum has exactly one winning prediction, which is the first one with the maximal score; the row is marked as a match exactly if its predicted label is the ground-truth label.", "quantifier": "every sequence of classifications, every number of labels, every score vector including ties", "why_tests_cant": "An invariant over all histories of the loader state.", "anchors": ["src/valor_lite/classification/loader.py::Loader._add_label", "src/valor_lite/classification/loader.py::Loader.add_data"]}
{"id": "C13", "title": "Classification counts at a threshold are the counts of the definition", "statement": "For every label and score threshold the TP/FP/FN/TN numbers are those of the written definition over the stored predictions (winner-take-all if hardmax): a prediction counts when its score reaches the threshold and is nonzero; TP when its label is the ground truth, FP otherwise, FN for datums of that ground truth that are not recovered, TN for the rest.", "quantifier": "every history of additions with at most 100000 distinct labels (above that see C20), every datum-aligned table layout, every list of thresholds, both hardmax settings", "why_tests_cant": "Vectorised masks and per-label set sizes; tests compare a few fixed matrices.", "anchors": ["src/valor_lite/classification/computation.py::compute_counts"]}
{"id": "C14", "title": "Recall denominators: TP+FN equals the number of ground truths", "statement": "With winner-take-all counting, for every label and threshold TP+FN equals the number of datums whose ground truth is that label (so recall is the fraction of that label's datums that were recovered).", "quantifier": "every set of datums with arbitrary prediction lists, all thresholds", "why_tests_cant": "Holds or fails depending on whether the ground-truth label is among the predicted labels; fixed tests always include it.", "anchors": ["src/valor_lite/classification/computation.py::compute_counts", "src/valor_lite/classification/evaluator.py::Evaluator.compute_precision_recall"]}
{"id": "C15", "title": "Counts do not depend on fragmentation or datum order", "statement": "The counts (hence precision, recall, F1, accuracy) computed by the evaluator are the same for any way of splitting the same data into fragments that does not split a datum, and for any order of the datums.", "quantifier": "every table and every datum-aligned split or permutation; classification with at most 100000 distinct labels (C20)", "why_tests_cant": "Relates all splits of all tables.", "anchors": ["src/valor_lite/classification/computation.py::compute_counts", "src/valor_lite/classification/evaluator.py::Evaluator.compute_precision_recall", "src/valor_lite/classification/evaluator.py::Evaluator.iterate_values"]}
{"id": "C16", "title": "Classification metrics are well defined fractions", "statement": "Precision, recall, F1 and accuracy are always in [0,1] (never NaN or division by zero), precision*(TP+FP)=TP, recall*(TP+FN)=TP, F1 lies between min and max of precision and recall and is their harmonic mean.", "quantifier": "all count vectors with non-negative entries; for accuracy every history, threshold and hardmax setting", "why_tests_cant": "Universally quantified arithmetic including the zero denominators.", "anchors": ["src/valor_lite/classification/computation.py::compute_precision", "src/valor_lite/classification/computation.py::compute_recall", "src/valor_lite/classification/computation.py::compute_f1_score", "src/valor_lite/classification/computation.py::compute_accuracy"]}
{"id": "C17", "title": "Accuracy under a datum filter is accuracy of the filtered data", "statement": "compute_precision_recall(datums=f) reports the accuracy that one obtains by evaluating only the datums that satisfy f.", "quantifier": "every table and every datum filter", "why_tests_cant": "The wrong denominator is invisible when the filter keeps everything, as in unfiltered tests.", "anchors": ["src/valor_lite/classification/evaluator.py::Evaluator.compute_precision_recall", "src/valor_lite/classification/computation.py::compute_accuracy"]}
{"id": "C18", "title": "Results at one threshold do not depend on the other thresholds requested", "statement": "For every list of score thresholds, in any order, the result reported for threshold t by the precision/recall, confusion matrix and example functions is the result of a call that requests t alone.", "quantifier": "all threshold lists (any order, repetitions), all tables, both tasks", "why_tests_cant": "Relates two calls for every list; tests request thresholds in ascending order only.", "anchors": ["src/valor_lite/classification/computation.py::compute_counts", "src/valor_lite/classification/computation.py::compute_pair_classifications", "src/valor_lite/object_detection/computation.py::compute_counts", "src/valor_lite/object_detection/computation.py::compute_pair_classifications"]}
{"id": "C19", "title": "Confusion matrix and its examples agree and account for every winner", "statement": "For each threshold, the confusion matrix entry counts exactly the winning predictions that pass the threshold by (ground truth, predicted) label, unmatched ground truths are exactly the datums with no passing winner, and the matrix with examples lists exactly that many examples in each cell.", "quantifier": "all tables, all thresholds", "why_tests_cant": "Two independently written code paths must agree on every input.", "anchors": ["src/valor_lite/classification/computation.py::compute_pair_classifications", "src/valor_lite/classification/computation.py::compute_confusion_matrix", "src/valor_lite/classification/evaluator.py::Evaluator.compute_confusion_matrix", "src/valor_lite/classification/evaluator.py::Evaluator.compute_confusion_matrix_with_examples", "src/valor_lite/classification/evaluator.py::Evaluator.compute_examples", "src/valor_lite/classification/utilities.py::unpack_confusion_matrix", "src/valor_lite/classification/utilities.py::_unpack_confusion_matrix_with_examples", "src/valor_lite/classification/utilities.py::create_mapping"]}
{"id": "C20", "title": "Distinct labels are never treated as equal", "statement": "Two different labels are never confounded in counting, matching or ranking, however many labels the dataset has.", "quantifier": "every pair of label ids", "why_tests_cant": "Label ids are compared with a relative floating tolerance; it takes about a hundred thousand labels to see a difference.", "anchors": ["src/valor_lite/classification/computation.py::compute_counts", "src/valor_lite/classification/computation.py::compute_pair_classifications", "src/valor_lite/object_detection/computation.py::rank_pairs", "src/valor_lite/object_detection/computation.py::compute_counts", "src/valor_lite/object_detection/computation.py::compute_pair_classifications"]}
{"id": "C21", "title": "ROCAUC equals the probability of ranking a positive above a negative", "statement": "For each label, the reported ROCAUC equals the Mann-Whitney statistic: over all (positive datum, negative datum) pairs the fraction with the positive scored higher, ties counting one half.", "quantifier": "every score assignment (with arbitrary ties) in which every datum scores the label", "why_tests_cant": "Equality of a trapezoidal sweep and a pair statistic for all inputs is a theorem, not a test.", "anchors": ["src/valor_lite/classification/computation.py::compute_rocauc", "src/valor_lite/classification/evaluator.py::Evaluator.compute_rocauc", "src/valor_lite/classification/evaluator.py::Builder._create_rocauc_intermediate"]}
{"id": "C22", "title": "ROCAUC does not depend on how the sorted rows are batched", "statement": "Feeding the sorted rows of the intermediate cache to the ROCAUC computation in any split into batches gives the same area as feeding them at once.", "quantifier": "every sorted row sequence and every split into batches", "why_tests_cant": "The carry-over between batches has a special case that only some splits trigger.", "anchors": ["src/valor_lite/classification/computation.py::compute_rocauc"]}
{"id": "C23", "title": "Classification filter keeps exactly the requested data", "statement": "filter(datums, groundtruths, predictions) writes exactly the source rows satisfying all the given conditions, unchanged, in order and as often as they occur, for every fragmentation; metrics after a datum filter are those of the selected classifications alone.", "quantifier": "every table and every filter expression; classification with at most 100000 distinct labels (C20)", "why_tests_cant": "Ranges over arbitrary predicates.", "anchors": ["src/valor_lite/classification/evaluator.py::Evaluator.filter"]}
{"id": "C24", "title": "Bounding box IoU is a proper overlap measure", "statement": "For valid boxes IoU is in [0,1], symmetric, 0 for disjoint boxes, 1 exactly for identical boxes (area at least 1e-9), and equals intersection area over union area.", "quantifier": "all pairs of boxes with xmin<=xmax, ymin<=ymax", "why_tests_cant": "Universally quantified arithmetic with max/min clamps and an epsilon guard.", "anchors": ["src/valor_lite/object_detection/computation.py::compute_bbox_iou"]}
{"id": "C25", "title": "Bitmask IoU is a proper overlap measure", "statement": "For non-empty masks of equal size IoU is |A and B| / |A or B|, in [0,1], symmetric, 1 exactly for equal masks and 0 exactly for disjoint masks.", "quantifier": "all pairs of masks", "why_tests_cant": "Universally quantified over all masks.", "anchors": ["src/valor_lite/object_detection/computation.py::compute_bitmask_iou"]}
{"id": "C26", "title": "Ranking keeps one best pair per prediction label", "statement": "The ranked cache contains, for every datum, prediction and predicted label, exactly one row; the row is one with matching label if such a pair exists, and has the highest IoU among the candidates; rows come in descending order of score, then IoU.", "quantifier": "every table of candidate pairs", "why_tests_cant": "Sort/unique tricks on composite keys; correctness depends on stability and key order for all inputs.", "anchors": ["src/valor_lite/object_detection/computation.py::rank_pairs", "src/valor_lite/object_detection/computation.py::rank_table"]}
{"id": "C27", "title": "At every IoU threshold each ground truth is matched at most once, by its best-ranked prediction", "statement": "For every positive IoU threshold t, a ranked row counts as a true positive exactly when it is the first row (in score order) that matches its ground truth with the same label and IoU >= t; hence at most one true positive per ground truth and threshold.", "quantifier": "every ranked row sequence and every t>0", "why_tests_cant": "The code stores a single interval (iou_prev, iou] per row in place of all thresholds; equivalence needs an invariant over the scan and a quantifier over real thresholds.", "anchors": ["src/valor_lite/object_detection/computation.py::calculate_ranking_boundaries", "src/valor_lite/object_detection/computation.py::compute_counts"]}
{"id": "C28", "title": "Detection counts add up and never underflow", "statement": "For each label, IoU threshold and score threshold: TP+FP is the number of ranked predictions of that label at or above the score threshold, TP never exceeds the number of ground truths of the label, hence FN = ground truths - TP is never negative.", "quantifier": "every ranked table, all thresholds", "why_tests_cant": "Unsigned arithmetic wraps silently; absence of underflow is a universal claim.", "anchors": ["src/valor_lite/object_detection/computation.py::compute_counts", "src/valor_lite/object_detection/computation.py::compute_precision_recall_f1"]}
{"id": "C29", "title": "Average precision is the 101-point interpolated area", "statement": "For each label and IoU threshold, AP = (1/101) * sum over recall points r=0,0.01,...,1 of the maximum precision reached at a recall level >= r (0 if none); it lies in [0,1], is 1 for a detector whose ranked predictions are all correct and complete, and 0 when there is no true positive.", "quantifier": "every score-ordered sequence of TP/FP decisions", "why_tests_cant": "Equality of an in-place running-maximum sweep with the definition for all sequences.", "anchors": ["src/valor_lite/object_detection/computation.py::compute_counts", "src/valor_lite/object_detection/computation.py::compute_average_precision", "src/valor_lite/object_detection/computation.py::compute_average_recall"]}
{"id": "C30", "title": "Confusion-matrix matching is one-to-one, greedy and maximal", "statement": "For every score-ordered list of candidate pairs, the chosen pairs use each ground truth and each prediction at most once, every not chosen candidate conflicts with an earlier chosen one, and a pair is chosen iff neither side was taken by an earlier chosen pair.", "quantifier": "every list of candidate pairs", "why_tests_cant": "Invariant of a greedy loop for lists of any length.", "anchors": ["src/valor_lite/object_detection/computation.py::mask_pairs_greedily"]}
{"id": "C31", "title": "Packed pair membership is exact", "statement": "The membership test used to find matched pairs answers exactly whether the (datum, id) pair is in the list, for all ids in the supported range.", "quantifier": "all ids 0 <= id < 2^31 and all lists", "why_tests_cant": "Bit packing of two ids in one integer: injectivity over the full range cannot be sampled.", "anchors": ["src/valor_lite/object_detection/computation.py::_isin"]}
{"id": "C32", "title": "Detection confusion matrix conserves annotations", "statement": "For each threshold pair, each ground truth is counted exactly once (matched with one prediction or missed) and each prediction passing the score threshold (and scored above 1e-9) is counted exactly once (matched or unmatched), when predictions carry one label.", "quantifier": "every detailed table with single-label predictions, all IoU and score thresholds", "why_tests_cant": "Conservation law over all inputs; depends on de-duplication of rows.", "anchors": ["src/valor_lite/object_detection/computation.py::compute_pair_classifications", "src/valor_lite/object_detection/computation.py::compute_confusion_matrix"]}
{"id": "C33", "title": "Detection filter never invents annotations and keeps what was asked", "statement": "After filter, the surviving ground truths are exactly those satisfying the ground-truth condition in kept datums, likewise predictions; pairs with both sides kept keep their IoU; a row with a removed side has IoU 0 and that side cleared.", "quantifier": "every table and every filter expression", "why_tests_cant": "Arbitrary predicates, both sides independently.", "anchors": ["src/valor_lite/object_detection/evaluator.py::Evaluator.filter"]}
{"id": "C34", "title": "Detection loader loses no annotation", "statement": "For any detection with at least one ground truth or prediction, after loading every ground truth and every (prediction, label) occurs in at least one row, with ids that are unique over the whole history and pair rows exactly for overlapping pairs (IoU >= 1e-9).", "quantifier": "every sequence of detections and every IoU matrix", "why_tests_cant": "Nested loops with several all/any conditions on the IoU matrix; invariant over histories.", "anchors": ["src/valor_lite/object_detection/loader.py::Loader._add_data", "src/valor_lite/object_detection/loader.py::Loader._add_label"]}
{"id": "C35", "title": "Finalizing twice is harmless", "statement": "Calling finalize a second time on a loader, also after a call that raised or was given other labels, either fails cleanly or returns an evaluator with the same metrics; it never changes results.", "quantifier": "every loader history, any number of finalize calls with any arguments", "why_tests_cant": "Histories with repeated calls are not tested and the number of calls is unbounded.", "anchors": ["src/valor_lite/object_detection/evaluator.py::Builder.finalize", "src/valor_lite/classification/evaluator.py::Builder.finalize"]}
{"id": "C36", "title": "Segmentation bitmasks become disjoint", "statement": "After constructing a Segmentation no pixel belongs to two ground-truth masks or to two predicted masks, and masks that were already disjoint are unchanged.", "quantifier": "every list of masks", "why_tests_cant": "Three or more masks with a specific overlap pattern are needed to observe a violation.", "anchors": ["src/valor_lite/semantic_segmentation/annotation.py::Segmentation._validate_bitmasks", "src/valor_lite/semantic_segmentation/annotation.py::Segmentation.__post_init__"]}
{"id": "C37", "title": "Every pixel is counted exactly once in the segmentation confusion matrix", "statement": "For disjoint masks with distinct labels, the entries (matched, unmatched predictions, unmatched ground truths, background) are the pixel counts by definition and they sum to the number of pixels.", "quantifier": "every image size and every family of disjoint masks", "why_tests_cant": "Partition of all pixels for all images.", "anchors": ["src/valor_lite/semantic_segmentation/computation.py::compute_intermediates"]}
{"id": "C38", "title": "Segmentation dataset matrix is the sum of the per-image matrices", "statement": "The confusion matrix recovered from the stored rows is the sum of the matrices of the images added, independent of order, batching, and fragmentation.", "quantifier": "every sequence of images, every split of rows; segmentation of images with one mask per label on each side, fewer than 2^64 pixels altogether", "why_tests_cant": "Encode/decode through rows must be a homomorphism for all sequences.", "anchors": ["src/valor_lite/semantic_segmentation/loader.py::Loader.add_data", "src/valor_lite/semantic_segmentation/evaluator.py::Evaluator._compute_confusion_matrix_intermediate"]}
{"id": "C39", "title": "Segmentation metrics are consistent fractions", "statement": "Precision, recall, IoU, F1 and accuracy are in [0,1]; IoU <= F1; IoU <= min(precision, recall); F1 = 2 IoU/(1+IoU); hallucination and missing ratios of a label sum with the matched ratios to 1 when nonzero.", "quantifier": "every confusion matrix with non-negative entries", "why_tests_cant": "Universal arithmetic facts including zero denominators.", "anchors": ["src/valor_lite/semantic_segmentation/computation.py::compute_metrics"]}
{"id": "C40", "title": "Segmentation filter preserves the number of pixels", "statement": "After a filter on datums/groundtruths/predictions, the total pixel count of each kept image is unchanged: filtered sides are turned into background instead of dropped.", "quantifier": "every table and every filter", "why_tests_cant": "Arbitrary predicates over all tables.", "anchors": ["src/valor_lite/semantic_segmentation/evaluator.py::Evaluator.filter"]}
{"id": "C41", "title": "LLM retry wrapper is bounded and never leaks invalid responses", "statement": "A guided metric makes at most 1+retries attempts, returns the first valid result, returns an Error metric iff every attempt produced an invalid LLM response, never raises InvalidLLMResponseError, and propagates any other exception at once.", "quantifier": "every sequence of LLM behaviours and every retry count >= 0", "why_tests_cant": "All sequences of failures; the LLM is adversarial.", "anchors": ["src/valor_lite/text_generation/manager.py::llm_guided_metric"]}
{"id": "C42", "title": "LLM guided scores lie in their documented range", "statement": "Whatever the LLM returns, a reported answer correctness/relevance, bias, context precision/recall/relevance, faithfulness, hallucination, toxicity score is in [0,1] and a summary coherence score is in {1..5}; anything else is reported as an invalid response.", "quantifier": "every LLM response", "why_tests_cant": "The LLM output is arbitrary text.", "anchors": ["src/valor_lite/text_generation/computation.py::calculate_answer_correctness", "src/valor_lite/text_generation/computation.py::calculate_answer_relevance", "src/valor_lite/text_generation/computation.py::calculate_bias", "src/valor_lite/text_generation/computation.py::calculate_context_precision", "src/valor_lite/text_generation/computation.py::calculate_context_recall", "src/valor_lite/text_generation/computation.py::calculate_faithfulness", "src/valor_lite/text_generation/computation.py::calculate_hallucination", "src/valor_lite/text_generation/computation.py::calculate_toxicity", "src/valor_lite/text_generation/computation.py::calculate_summary_coherence"]}
{"id": "C43", "title": "Context precision rewards relevant-first ordering", "statement": "Context precision is in [0,1], is 0 iff no context is relevant, 1 iff the relevant contexts form a prefix of a non-empty list, and swapping an irrelevant context with the relevant one right after it never lowers it.", "quantifier": "every verdict list", "why_tests_cant": "Statement over lists of all lengths.", "anchors": ["src/valor_lite/text_generation/computation.py::calculate_context_precision"]}
{"id": "C44", "title": "Verdict and statement validation is exact", "statement": "A response passes validation iff it is a dictionary with the required key holding a list of well formed verdicts of the demanded length with allowed values; otherwise an invalid-response error is raised.", "quantifier": "every JSON value", "why_tests_cant": "All JSON values.", "anchors": ["src/valor_lite/text_generation/llm/validators.py::validate_statements", "src/valor_lite/text_generation/llm/validators.py::validate_verdicts"]}
{"id": "C45", "title": "No LLM response makes a guided metric crash", "statement": "Whatever JSON the LLM returns, a guided metric returns a metric or an Error metric; it never raises ZeroDivisionError, KeyError or similar.", "quantifier": "every LLM response", "why_tests_cant": "The LLM output is arbitrary; only some replies (such as an empty statement list) trigger the crash.", "anchors": ["src/valor_lite/text_generation/computation.py::calculate_context_recall", "src/valor_lite/text_generation/llm/generation.py::generate_statements", "src/valor_lite/text_generation/llm/generation.py::generate_context_recall_verdicts", "src/valor_lite/text_generation/manager.py::llm_guided_metric"]}
{"id": "C46", "title": "JSON extraction finds the outermost braces", "statement": "The text handed to the JSON parser is the substring from the first '{' to the last '}' of the response, and extraction fails exactly if no '}' follows a '{'; prose around it never changes the result as long as no '{' comes before and no '}' after.", "quantifier": "every response string", "why_tests_cant": "All strings.", "anchors": ["src/valor_lite/text_generation/llm/utilities.py::trim_and_load_json"]}
{"id": "C47", "title": "Integer extraction returns the first signed integer", "statement": "The number used as a coherence score is the first maximal digit run with an optional sign in front; strings without digits give no number; text without digits and signs in front is ignored.", "quantifier": "every response string", "why_tests_cant": "All strings.", "anchors": ["src/valor_lite/text_generation/llm/utilities.py::find_first_signed_integer"]}
{"id": "C48", "title": "Token accounting is exact over any history of calls", "statement": "The token totals reported by the OpenAI wrapper equal the sums of the reported usages of all completed API calls, including those whose response is rejected, and never decrease.", "quantifier": "every history of API replies", "why_tests_cant": "Histories of arbitrary length including failing calls.", "anchors": ["src/valor_lite/text_generation/llm/integrations.py::OpenAIWrapper.__call__"]}
{"id": "C49", "title": "Metadata fields survive storage and never shadow reserved columns", "statement": "Metadata field declarations with distinct names are restored by load exactly, and a declaration that collides with a reserved column is rejected before anything is written.", "quantifier": "every list of metadata fields", "why_tests_cant": "All field lists; the order of validation and directory creation matters only on the error path.", "anchors": ["src/valor_lite/object_detection/shared.py::generate_detailed_schema", "src/valor_lite/object_detection/shared.py::generate_ranked_schema", "src/valor_lite/object_detection/shared.py::encode_metadata_fields", "src/valor_lite/object_detection/shared.py::decode_metadata_fields", "src/valor_lite/object_detection/evaluator.py::Builder.persistent"]}
{"id": "C50", "title": "Label mapping recovered from a cache is the loader's mapping", "statement": "The label index extracted from stored rows maps each used label id to the label it was assigned by the loader, for every fragmentation, and never contains the placeholder id.", "quantifier": "every history of additions and every fragmentation", "why_tests_cant": "All histories and all splits.", "anchors": ["src/valor_lite/object_detection/shared.py::extract_labels", "src/valor_lite/classification/shared.py::extract_labels"]}
{"id": "C51", "title": "A cache only touches its own data, whatever its path is called", "statement": "Rows flushed into an on-disk cache are kept until the cache is deleted, and deleting a cache removes no file of another cache, for every legal directory name.", "quantifier": "every directory name, every set of sibling caches, every history of writes", "why_tests_cant": "Directory names and sibling layouts are unbounded; tests only use names without glob metacharacters.", "anchors": ["src/valor_lite/cache/persistent.py::FileCache.get_dataset_files", "src/valor_lite/cache/persistent.py::FileCacheWriter._generate_next_filename", "src/valor_lite/cache/persistent.py::FileCacheWriter.delete"]}
{"id": "C52", "title": "Examples list every datum once with its hits, misses and false alarms", "statement": "compute_examples returns one entry per datum and threshold, for the datums that satisfy the filter from number offset on and at most limit of them, in the order of adding; it lists the ground truth as true positive when it is predicted at the threshold and as false negative otherwise, and as false positives exactly the other labels predicted at the threshold.", "quantifier": "every history of additions with at most 100000 labels, every datum-aligned table layout, every filter on datums, limit and offset, every list of thresholds, both hardmax settings", "why_tests_cant": "Set-valued output over all tables; tests look at a handful of datums.", "anchors": ["src/valor_lite/classification/utilities.py::unpack_examples", "src/valor_lite/classification/evaluator.py::Evaluator.compute_examples"]}
{"id": "C53", "title": "Counts and confusion matrix of one dataset agree", "statement": "At every threshold the true positives of a label equal the diagonal entry of the confusion matrix, and its true plus false positives the sum of its column.", "quantifier": "every history of additions, every table layout, every threshold, both hardmax settings", "why_tests_cant": "Two separately written computations with different notions of a zero score; agreement must hold on every input.", "anchors": ["src/valor_lite/classification/computation.py::compute_counts", "src/valor_lite/classification/computation.py::compute_pair_classifications", "src/valor_lite/classification/computation.py::compute_confusion_matrix"]}
{"id": "C54", "title": "Detection counts are the annotations that were added", "statement": "For detections whose ground truths have one label each: for every label the ground-truth count is the number of ground truths added with that label; true plus false positives is the number of predictions added with that label whose score passes the threshold; row and column sums of the confusion matrix are the same numbers; true positives are the ground truths found by their best prediction.", "quantifier": "every sequence of add calls, every file layout, every IoU and score threshold, with or without a datum selection", "why_tests_cant": "End to end over unbounded histories and every way rows are split into files.", "anchors": ["src/valor_lite/object_detection/loader.py::Loader._add_data", "src/valor_lite/object_detection/evaluator.py::Evaluator.compute_precision_recall", "src/valor_lite/object_detection/evaluator.py::Evaluator.compute_confusion_matrix"]}
{"id": "C55", "title": "Evaluator info reports what was added", "statement": "get_info reports as number of datums, ground truths and predictions the numbers that were added to the loader (or that satisfy the conditions), for every file layout.", "quantifier": "every history, every layout, every filter condition; segmentation of images with one mask per label on each side, fewer than 2^64 pixels altogether", "why_tests_cant": "Counts are summed per table, so every split and every history matters.", "anchors": ["src/valor_lite/object_detection/shared.py::extract_counts", "src/valor_lite/object_detection/evaluator.py::Evaluator.get_info", "src/valor_lite/classification/shared.py::extract_counts"]}
{"id": "C56", "title": "A datum filter given to a computation equals filtering first", "statement": "Computing metrics with a datums expression gives the same result as filtering the evaluator by that expression and computing without it.", "quantifier": "every cache and every datum expression; detection with at most 100000 labels and 2^31 annotations and datums", "why_tests_cant": "Two different code paths must agree on all data and predicates.", "anchors": ["src/valor_lite/semantic_segmentation/evaluator.py::Evaluator.filter", "src/valor_lite/semantic_segmentation/evaluator.py::Evaluator._compute_confusion_matrix_intermediate", "src/valor_lite/object_detection/evaluator.py::Evaluator.filter", "src/valor_lite/object_detection/evaluator.py::Evaluator.compute_precision_recall"]}
{"id": "C57", "title": "Segmentation filters do not depend on batching", "statement": "The confusion matrix after a segmentation filter is the one of the accepted images with the rejected masks left out, however the stored rows are divided into batches and files.", "quantifier": "every history, every filter and every division of the rows; segmentation of images with one mask per label on each side, fewer than 2^64 pixels altogether", "why_tests_cant": "Batch boundaries that cut an image are invisible in small tests.", "anchors": ["src/valor_lite/semantic_segmentation/evaluator.py::Evaluator.filter"]}
{"id": "C58", "title": "Detection metrics do not depend on how the cache is stored", "statement": "For the same detections, added in the same order, counts, precision-recall curves, average precision and confusion matrices are the same whether the cache is kept in memory or in files, and whatever the batch size and the rows per file are.", "quantifier": "every history of add calls, every batch size and rows per file, every division of the ranked rows into batches, every threshold and label", "why_tests_cant": "Ties in score and IoU are resolved by row order and table boundaries; agreement over all divisions cannot be enumerated.", "anchors": ["src/valor_lite/object_detection/evaluator.py::Builder.finalize", "src/valor_lite/object_detection/evaluator.py::Evaluator.compute_precision_recall", "src/valor_lite/object_detection/evaluator.py::Evaluator.compute_confusion_matrix", "src/valor_lite/object_detection/computation.py::rank_table", "src/valor_lite/object_detection/computation.py::rank_pairs", "src/valor_lite/object_detection/computation.py::compute_counts"]}
{"id": "C59", "title": "Detection examples and the confusion matrix with examples tell the same story", "statement": "The examples of a datum list as true positives, false positives and false negatives exactly the ground truths and the predictions that the greedy assignment yields at the given thresholds, each annotation once; every count of the confusion matrix with examples is the number of examples listed with it and equals the plain confusion matrix; and both outputs use one and the same assignment.", "quantifier": "every cache, every division of its rows into tables, every pair of thresholds, every datum filter, every limit and offset; detection with at most 100000 labels and 2^31 annotations and datums", "why_tests_cant": "Three separately written vectorised computations over deduplicated rows must agree on every input.", "anchors": ["src/valor_lite/object_detection/computation.py::compute_pair_classifications", "src/valor_lite/object_detection/computation.py::compute_confusion_matrix", "src/valor_lite/object_detection/evaluator.py::Evaluator.compute_examples", "src/valor_lite/object_detection/evaluator.py::Evaluator.compute_confusion_matrix_with_examples"]}
{"id": "C60", "title": "The detection report is the per-threshold metrics and their means", "statement": "compute_precision_recall with lists of IoU and score thresholds reports for every label and pair of thresholds the counts, precision, recall and F1 = 2TP/(TP+FP+n) of that pair alone; for every IoU threshold the average precision of that threshold alone; the averaged, mean and mean-averaged values are the means over the thresholds and labels; every rate is a number in [0,1].", "quantifier": "every cache, every division of the ranked cache into tables, every non-empty list of IoU and score thresholds, every order of equal precisions; detection with at most 100000 labels and 2^31 annotations and datums", "why_tests_cant": "The code fills multi-dimensional arrays in one vectorised loop; influence of one threshold on another needs all lists of thresholds.", "anchors": ["src/valor_lite/object_detection/evaluator.py::Evaluator.compute_precision_recall", "src/valor_lite/object_detection/computation.py::compute_counts", "src/valor_lite/object_detection/computation.py::compute_precision_recall_f1", "src/valor_lite/object_detection/computation.py::compute_average_recall", "src/valor_lite/object_detection/computation.py::compute_average_precision"]}
{"id": "C61", "title": "The score reported on the precision-recall curve is the threshold that reaches the recall", "statement": "At every recall level j/100 with j from 1 to 100 the score reported on the precision-recall curve is the highest score threshold at which the label's recall reaches the level, or 0 when no prediction above the epsilon reaches it; scores and precisions do not increase with the level.", "quantifier": "every cache, every division of the ranked cache, every positive IoU threshold, every label with ground truths", "why_tests_cant": "The curve is accumulated over tables with max updates and interpolated backwards; ties and table borders are unbounded.", "anchors": ["src/valor_lite/object_detection/computation.py::compute_counts", "src/valor_lite/object_detection/computation.py::compute_average_precision"]}
{"id": "C62", "title": "Confusion matrices of all thresholds are the ones of single thresholds", "statement": "compute_confusion_matrix with lists of thresholds returns one matrix per pair of thresholds, in the order of the lists; each matrix has exactly one cell per pair of labels, and its counts are those of a call with this pair alone.", "quantifier": "every cache, also with several labels per prediction, every division into tables, all non-empty lists of thresholds; detection with at most 100000 labels and 2^31 annotations and datums", "why_tests_cant": "Bit flags of all pairs are computed in one loop with shared arrays; independence of the entries needs all lists.", "anchors": ["src/valor_lite/object_detection/computation.py::compute_pair_classifications", "src/valor_lite/object_detection/computation.py::compute_confusion_matrix", "src/valor_lite/object_detection/evaluator.py::Evaluator.compute_confusion_matrix"]}
{"id": "C63", "title": "Detection true positives are the diagonal of the confusion matrix", "statement": "At the same IoU and score thresholds the true positives that compute_precision_recall counts for a label equal the diagonal entry of the label in compute_confusion_matrix.", "quantifier": "every history of add calls with one label per prediction, every division of the cache, all thresholds above the epsilon; detection with at most 100000 labels and 2^31 annotations and datums", "why_tests_cant": "Two separately written assignments of predictions to ground truths; agreement must hold for all overlaps and ties.", "anchors": ["src/valor_lite/object_detection/computation.py::rank_pairs", "src/valor_lite/object_detection/computation.py::compute_counts", "src/valor_lite/object_detection/computation.py::mask_pairs_greedily", "src/valor_lite/object_detection/computation.py::compute_pair_classifications", "src/valor_lite/object_detection/evaluator.py::Evaluator.compute_precision_recall", "src/valor_lite/object_detection/evaluator.py::Evaluator.compute_confusion_matrix"]}
{"id": "C64", "title": "Every classification metric carries its own label, threshold and value", "statement": "compute_precision_recall, compute_confusion_matrix, compute_rocauc, compute_examples and compute_confusion_matrix_with_examples return, for each label (or datum) by name and each threshold in the order given, one metric whose value is that of this label at this threshold (counts, precision, recall, F1, cells of the matrix, examples, ROC area), one accuracy per threshold, and as mean area the mean of the listed areas; the matrices and examples for thresholds given in ascending order (C18).", "quantifier": "every history of add_data calls with at most 100000 distinct labels (C20), every datum-aligned division of the cache, every non-empty list of thresholds, both hardmax settings", "why_tests_cant": "Arrays are indexed by ids and turned into lists by name; a shifted or transposed index only shows for particular label orders and shapes.", "anchors": ["src/valor_lite/classification/utilities.py::unpack_precision_recall", "src/valor_lite/classification/utilities.py::unpack_rocauc", "src/valor_lite/classification/utilities.py::unpack_confusion_matrix", "src/valor_lite/classification/evaluator.py::Evaluator.compute_precision_recall", "src/valor_lite/classification/evaluator.py::Evaluator.compute_confusion_matrix", "src/valor_lite/classification/evaluator.py::Evaluator.compute_rocauc"]}
{"id": "C65", "title": "Every segmentation metric carries its own label and value", "statement": "compute_precision_recall_iou returns for each label of the data, by name and once, the precision, recall, F1 and IoU of its pixels over the whole dataset, a confusion matrix with one IoU per pair of labels by name, and the mean of the IoU of the labels.", "quantifier": "all images with disjoint masks and distinct labels, in any order and batching, every division of the cache into tables; segmentation of images with one mask per label on each side, fewer than 2^64 pixels altogether", "why_tests_cant": "The dictionary of labels is built from the rows and indexed in three ways; agreement must hold for every order of first appearance.", "anchors": ["src/valor_lite/semantic_segmentation/utilities.py::unpack_precision_recall_iou_into_metric_lists", "src/valor_lite/semantic_segmentation/evaluator.py::Evaluator.compute_precision_recall_iou", "src/valor_lite/semantic_segmentation/computation.py::compute_metrics"]}
{"id": "C66", "title": "Arrays read from a cache line up with their rows and with the requested columns", "statement": "iterate_tables_with_arrays and iterate_arrays return, for any choice of columns, exactly the accepted rows in order; row i of an array belongs to row i of the table next to it, column j is the j-th requested numeric column.", "quantifier": "every schema, every request of columns, every filter, every division into tables, every iteration order of Python sets", "why_tests_cant": "The columns are collected in a set of strings, whose order changes from process to process; a test sees one order.", "anchors": ["src/valor_lite/cache/ephemeral.py::MemoryCacheReader.iterate_tables", "src/valor_lite/cache/ephemeral.py::MemoryCacheReader.iterate_arrays", "src/valor_lite/cache/ephemeral.py::MemoryCacheReader.iterate_tables_with_arrays", "src/valor_lite/cache/persistent.py::FileCacheReader.iterate_tables", "src/valor_lite/cache/persistent.py::FileCacheReader.iterate_arrays", "src/valor_lite/cache/persistent.py::FileCacheReader.iterate_tables_with_arrays"]}
{"id": "C67", "title": "Sorting a cache in place loses nothing; counts are the numbers of rows and tables", "statement": "After a flush count_rows is the number of rows handed over and count_tables the number of tables read; sort_by leaves the tables in place, each sorted by the key with ties in order; rows written later follow.", "quantifier": "every history of writes, flushes and sorts, every order of the directory listing", "why_tests_cant": "Writes, flushes and sorts interleave in unboundedly many ways, and the listing order is up to the file system.", "anchors": ["src/valor_lite/cache/ephemeral.py::MemoryCacheWriter.sort_by", "src/valor_lite/cache/ephemeral.py::MemoryCache.count_rows", "src/valor_lite/cache/ephemeral.py::MemoryCache.count_tables", "src/valor_lite/cache/persistent.py::FileCacheWriter.sort_by", "src/valor_lite/cache/persistent.py::FileCache.count_rows", "src/valor_lite/cache/persistent.py::FileCache.count_tables"]}
{"id": "C68", "title": "BLEU compares words: white space and periods only separate, ROUGE gives one clipped score per type", "statement": "No character except white space and periods is lost by the tokenizer; pieces separated by white space or periods are tokenized independently; layout and periods do not change BLEU; the result is 0 or at least 1e-9; ROUGE returns each requested type once, in order, never negative.", "quantifier": "every text, every Unicode table, every scoring library", "why_tests_cant": "Texts are unbounded and the alternatives of the regular expression interact with what follows in the text.", "anchors": ["src/valor_lite/text_generation/computation.py::calculate_sentence_bleu", "src/valor_lite/text_generation/computation.py::calculate_rouge_scores", "src/valor_lite/text_generation/manager.py::compute_sentence_bleu", "src/valor_lite/text_generation/manager.py::compute_rouge"]}
{"id": "C69", "title": "compute_all returns every metric", "statement": "With a client and a context compute_all returns the ten guided metrics, ROUGE and BLEU, each what the single call would return at its place in the sequence, whatever a well-behaved LLM replies.", "quantifier": "every well-behaved LLM, every response with a context", "why_tests_cant": "Ten metrics with several retried LLM calls each; one exception in any of them loses all.", "anchors": ["src/valor_lite/text_generation/manager.py::compute_all"]}
{"id": "C70", "title": "Malformed messages are never sent", "statement": "The client wrappers send exactly the lists of dictionaries with a text under role and content; everything else raises TypeError or ValueError and leaves server and token counters as they were; the package's own messages always pass.", "quantifier": "every Python value passed as messages, every server", "why_tests_cant": "The space of malformed values is unbounded (nesting, missing keys, wrong types, at any position).", "anchors": ["src/valor_lite/text_generation/llm/integrations.py::_validate_messages", "src/valor_lite/text_generation/llm/integrations.py::OpenAIWrapper.__call__", "src/valor_lite/text_generation/llm/integrations.py::MistralWrapper.__call__"]}
{"id": "C71", "title": "A reported LLM-guided metric is about the response it was asked for", "statement": "Each compute method returns a metric of its own type with the evaluator's model name and retries, and its value is the one determined by the replies of the first valid attempt to prompts made of this query, this response, the predicted contexts and the ground truths, each in its role.", "quantifier": "every LLM, every response, every number of retries", "why_tests_cant": "Swapped arguments (ground truth for prediction, text for summary) give plausible numbers; the LLM's replies are arbitrary and stateful.", "anchors": ["src/valor_lite/text_generation/manager.py::compute_answer_correctness", "src/valor_lite/text_generation/manager.py::compute_answer_relevance", "src/valor_lite/text_generation/manager.py::compute_bias", "src/valor_lite/text_generation/manager.py::compute_context_precision", "src/valor_lite/text_generation/manager.py::compute_context_recall", "src/valor_lite/text_generation/manager.py::compute_context_relevance", "src/valor_lite/text_generation/manager.py::compute_faithfulness", "src/valor_lite/text_generation/manager.py::compute_hallucination", "src/valor_lite/text_generation/manager.py::compute_summary_coherence", "src/valor_lite/text_generation/manager.py::compute_toxicity"]}
{"id": "C72", "title": "Metrics computed in double precision stay in their range", "statement": "Precision, recall, F1, accuracy, IoU, average precision, means and the text generation scores, as computed with IEEE doubles in the order of operations of the code, are in [0, 1]; ratios of counts are reported as 1 only if numerator and denominator agree, as 0 only if the numerator is 0; average precision differs from the exact value by at most 2^-44.", "quantifier": "all counts (equality with 0 or 1: counts up to 2^53), boxes, masks, curves, means of up to 2^53 values in every summation order; IEEE doubles, round to nearest even, gradual underflow", "why_tests_cant": "Rounding errors depend on the particular counts; tests sample a few counts and compare with a tolerance.", "anchors": ["src/valor_lite/classification/computation.py::compute_precision", "src/valor_lite/classification/computation.py::compute_recall", "src/valor_lite/classification/computation.py::compute_f1_score", "src/valor_lite/classification/computation.py::compute_accuracy", "src/valor_lite/object_detection/computation.py::compute_bbox_iou", "src/valor_lite/object_detection/computation.py::compute_bitmask_iou", "src/valor_lite/object_detection/computation.py::compute_counts", "src/valor_lite/object_detection/computation.py::compute_average_precision", "src/valor_lite/semantic_segmentation/computation.py::compute_metrics"]}
{"id": "C73", "title": "Threshold decisions in double precision are those of exact arithmetic", "statement": "Comparing a computed score or IoU with a threshold literal has the same outcome as comparing the exact value with the number the user wrote.", "quantifier": "all scores with up to 15 decimals, all masks, all integer boxes up to 2^20; all thresholds p/q in range", "why_tests_cant": "A pair exactly at the threshold may flip by one rounding; which pairs do depends on the coordinates.", "anchors": ["src/valor_lite/object_detection/computation.py::compute_bbox_iou", "src/valor_lite/object_detection/computation.py::compute_bitmask_iou", "src/valor_lite/object_detection/computation.py::calculate_ranking_boundaries", "src/valor_lite/classification/computation.py::compute_counts"]}
{"id": "C74", "title": "ROCAUC in double precision is in [0, 1], close to the statistic, and 1 for a perfect ranking", "statement": "The ROCAUC of a label, computed with IEEE doubles, lies in [0, 1], differs from the Mann-Whitney statistic of the scores only by accumulated rounding, and is 1 if every positive datum is ranked above every negative one.", "quantifier": "every history, every division into tables and chunks, every summation order", "why_tests_cant": "The error depends on group sizes and on the order in which the library adds; no finite set of rankings settles it.", "anchors": ["src/valor_lite/classification/computation.py::compute_rocauc", "src/valor_lite/classification/numpy_compatibility.py::trapezoid"]}
{"id": "C75", "title": "Detection metrics do not depend on the order in which detections are added", "statement": "Adding the same detections in another order, in other calls or stored otherwise, leaves for every label name and all thresholds the numbers of ground truths, true positives, false positives and false negatives, the confusion matrix, the precision-recall curve and the average precision unchanged.", "quantifier": "all detections with any number of labels per prediction, all permutations, all divisions into calls and files, all thresholds", "why_tests_cant": "The number of orders is factorial and the ids, offsets and ties change with each; tests add data in one order.", "anchors": ["src/valor_lite/object_detection/loader.py::Loader._add_data", "src/valor_lite/object_detection/evaluator.py::Builder._rank", "src/valor_lite/object_detection/computation.py::rank_pairs", "src/valor_lite/object_detection/computation.py::rank_table", "src/valor_lite/object_detection/computation.py::compute_counts"]}
{"id": "C76", "title": "Classification and segmentation reports do not depend on the order of adding data", "statement": "Adding the same classifications (or segmentations) in another order or in other calls, stored in other tables, gives reports with the same accuracy and mean IoU, the same metrics by label up to the order of the list, and confusion matrices that agree on every pair of label names.", "quantifier": "all data, all permutations, all divisions into calls and tables, all thresholds; classification with at most 100000 distinct labels (C20); segmentation of images with one mask per label on each side, fewer than 2^64 pixels altogether", "why_tests_cant": "Label ids and datum ids change with the order; tests add data in one order.", "anchors": ["src/valor_lite/classification/loader.py::Loader.add_data", "src/valor_lite/classification/evaluator.py::Evaluator.compute_precision_recall", "src/valor_lite/classification/evaluator.py::Evaluator.compute_confusion_matrix", "src/valor_lite/semantic_segmentation/loader.py::Loader.add_data", "src/valor_lite/semantic_segmentation/evaluator.py::Evaluator.compute_precision_recall_iou"]}
{"id": "C77", "title": "Average precision in double precision is the 101-point interpolated mean", "statement": "The average precision computed with IEEE doubles equals, up to accumulated rounding, the mean of the interpolated precisions at the recalls 0, 0.01, ..., 1 of the ranked decisions of the label.", "quantifier": "all rankings, all divisions into tables, up to 2^44 ground truths and 2^53 predictions", "why_tests_cant": "Whether a recall that is a multiple of 0.01 falls into its own bin depends on two roundings; tests use a handful of ground truths.", "anchors": ["src/valor_lite/object_detection/computation.py::compute_counts", "src/valor_lite/object_detection/computation.py::compute_average_precision"]}
{"id": "C78", "title": "Different requests give different prompts", "statement": "Two requests to the LLM of the same or of different kinds, about different texts or lists, are never rendered as the same prompt, so the reply can depend on everything the user passed in.", "quantifier": "all request kinds, all texts and lists of texts", "why_tests_cant": "The prompts join free texts with fixed separators; whether two inputs collide is a question about all pairs of texts.", "anchors": ["src/valor_lite/text_generation/llm/instructions.py::format_claims_instruction", "src/valor_lite/text_generation/llm/instructions.py::format_bias_verdicts_instruction", "src/valor_lite/text_generation/llm/instructions.py::format_context_precision_verdicts_instruction", "src/valor_lite/text_generation/llm/instructions.py::format_summary_coherence_instruction"]}
{"id": "C79", "title": "The JSON object in a reply is read exactly as JSON says", "statement": "A reply is accepted by trim_and_load_json exactly if the text between its first opening and last closing brace is a JSON object, the result is that object (with the last of equal keys), and any other reply gives InvalidLLMResponseError, except for integers beyond Python's digit limit and nesting beyond the recursion limit.", "quantifier": "all replies", "why_tests_cant": "The set of malformed and well-formed JSON texts is infinite; tests try a few.", "anchors": ["src/valor_lite/text_generation/llm/utilities.py::trim_and_load_json"]}
{"id": "C80", "title": "A reply in the format of the prompt's own example is accepted", "statement": "If the LLM answers with the example that the prompt shows it, alone or inside prose, about as many inputs as the example has, then the reply is accepted by the validation.", "quantifier": "all prompts with an example, all texts around it, all inputs with the numbers of the example", "why_tests_cant": "The tests mock the LLM with hand-written replies and never feed the example of the prompt to the parser.", "anchors": ["src/valor_lite/text_generation/llm/instructions.py::format_bias_verdicts_instruction", "src/valor_lite/text_generation/llm/instructions.py::format_context_recall_verdicts_instruction", "src/valor_lite/text_generation/llm/generation.py::_generate", "src/valor_lite/text_generation/llm/generation.py::generate_bias_verdicts", "src/valor_lite/text_generation/llm/generation.py::generate_context_recall_verdicts"]}
{"id": "C81", "title": "A stricter threshold never finds more", "statement": "Raising the score threshold never gives a label more true or false positives, and raising the IoU or score threshold of a detection evaluation never raises true positives, recall or average precision, nor any entry of the confusion matrix; raising the IoU threshold alone never raises precision or F1 either, and the unmatched ground truths never become fewer. In classification the recall of a label never rises with the score threshold.", "quantifier": "all datasets, all caches of them, all labels, all pairs of thresholds; classification with at most 100000 distinct labels (C20)", "why_tests_cant": "The tests compare a handful of thresholds on one dataset with tabulated numbers; monotonicity relates two runs and must hold for every dataset and every pair of thresholds.", "anchors": ["src/valor_lite/classification/computation.py::compute_counts", "src/valor_lite/classification/computation.py::compute_recall", "src/valor_lite/classification/computation.py::compute_accuracy", "src/valor_lite/object_detection/computation.py::compute_counts", "src/valor_lite/object_detection/computation.py::compute_precision_recall_f1", "src/valor_lite/object_detection/computation.py::compute_average_recall", "src/valor_lite/object_detection/computation.py::compute_average_precision", "src/valor_lite/object_detection/computation.py::compute_confusion_matrix"]}
{"id": "C82", "title": "Perfect predictions get perfect scores", "statement": "If the predictions are the ground truths, then every reported rate is 1: precision, recall, F1, accuracy, IoU and average precision and recall of every label that occurs, at every threshold that the scores reach, however the data was added and stored. Accuracy 1 in turn means that every datum or pixel is predicted correctly, and a label whose data all score higher than the rest has ROC area 1.", "quantifier": "all datasets whose predictions agree with the ground truths, all caches of them, all thresholds reached; classification with at most 100000 distinct labels (C20); detection with at most 100000 labels and 2^31 annotations and datums", "why_tests_cant": "The tests use a few perfect samples with fixed boxes; that no arrangement of annotations, labels, ids, batches or thresholds makes a perfect model lose points is a statement about all datasets.", "anchors": ["src/valor_lite/classification/computation.py::compute_counts", "src/valor_lite/classification/computation.py::compute_precision", "src/valor_lite/classification/computation.py::compute_recall", "src/valor_lite/classification/computation.py::compute_f1_score", "src/valor_lite/classification/computation.py::compute_accuracy", "src/valor_lite/object_detection/computation.py::rank_pairs", "src/valor_lite/object_detection/computation.py::compute_counts", "src/valor_lite/object_detection/computation.py::compute_average_precision", "src/valor_lite/object_detection/computation.py::compute_average_recall", "src/valor_lite/semantic_segmentation/computation.py::compute_metrics"]}
{"id": "C83", "title": "Files of an on-disk cache keep close to rows_per_file", "statement": "In a cache on disk no file is larger than rows_per_file plus what one flush can bring (batch_size plus the rows of one call, minus 2), whatever the mixture of write_rows, write_batch, write_table and flush; and when the cache is filled with write_rows/write_batch alone, every file except the last has at least rows_per_file rows, so that the number of files is at most rows / rows_per_file + 1.", "quantifier": "for all batch_size and rows_per_file, all histories of write calls and all sizes of the data handed over", "why_tests_cant": "Tests write a few hundred rows and count files for selected parameters; the bound for every interleaving of buffered rows, large batches and flushes needs an invariant of the writer.", "anchors": ["src/valor_lite/cache/persistent.py::FileCacheWriter.write_batch", "src/valor_lite/cache/persistent.py::FileCacheWriter.write_table", "src/valor_lite/cache/persistent.py::FileCacheWriter.flush", "src/valor_lite/cache/persistent.py::FileCacheWriter._get_or_create_writer", "src/valor_lite/cache/persistent.py::FileCacheWriter._close_writer"]}
{"id": "C84", "title": "Counts of shards add up to the counts of the whole dataset", "statement": "Evaluating a dataset in shards (any partition, each shard with its own evaluator, cache layout, order and label ids) and adding the results per label gives the counts of evaluating it as a whole: true/false positives, false (and, for classification, true) negatives and confusion-matrix entries, for every threshold; classification accuracy of the whole is the mean over the shards weighted by datums. Consequently, repeating every datum n times leaves precision, recall, F1, accuracy and IoU unchanged.", "quantifier": "for all datasets, partitions, orders, batchings and cache layouts, all thresholds and labels, and all repetition counts; classification with at most 100000 distinct labels (C20); detection with at most 100000 labels and 2^31 annotations and datums; segmentation of images with one mask per label on each side, fewer than 2^64 pixels altogether", "why_tests_cant": "Tests evaluate one dataset at a time; that two evaluators with different label numbering agree after adding up holds for all partitions only by a proof over every dataset.", "anchors": ["src/valor_lite/classification/evaluator.py::Evaluator.compute_precision_recall", "src/valor_lite/classification/evaluator.py::Evaluator.compute_confusion_matrix", "src/valor_lite/classification/computation.py::compute_counts", "src/valor_lite/object_detection/evaluator.py::Evaluator.compute_precision_recall", "src/valor_lite/object_detection/evaluator.py::Evaluator.compute_confusion_matrix", "src/valor_lite/semantic_segmentation/evaluator.py::Evaluator.compute_precision_recall_iou"]}
{"id": "C85", "title": "Label names carry no meaning", "statement": "Renaming the labels of a dataset (different labels to different names) renames the results and changes no number: in classification, detection and segmentation every count, precision, recall, F1, IoU, accuracy and confusion-matrix entry of a label is that of the label it renames, whatever the order of adding and the storage; average precision too, for detections in the same order (C75).", "quantifier": "for all datasets, all injective renamings, all thresholds, orders, batchings and cache layouts; classification with at most 100000 distinct labels (C20); detection with at most 100000 labels and 2^31 annotations and datums; segmentation of images with one mask per label on each side, fewer than 2^64 pixels altogether", "why_tests_cant": "Ids are given in order of appearance and names travel through parquet columns, dictionaries and index lookups; tests use a handful of fixed names and cannot exclude that some name or some order of names is treated specially.", "anchors": ["src/valor_lite/classification/loader.py::Loader._add_label", "src/valor_lite/object_detection/loader.py::Loader._add_label", "src/valor_lite/object_detection/loader.py::Loader._add_data", "src/valor_lite/semantic_segmentation/loader.py::Loader._add_label", "src/valor_lite/object_detection/computation.py::rank_pairs"]}
{"id": "C86", "title": "Only the order of the scores matters", "statement": "Putting all prediction scores, and the score threshold, on another strictly increasing scale (for instance temperature scaling, percentages instead of fractions) leaves all counts, metrics, confusion matrices, average precisions and ROC areas unchanged.", "quantifier": "for all datasets, all strictly increasing scales and all thresholds, orders, batchings and cache layouts; classification with at most 100000 distinct labels (C20); detection with at most 100000 labels and 2^31 annotations and datums", "why_tests_cant": "The scores go through sorts, tie handling, running maxima and comparisons with small constants; unit tests use a few scores in (0, 1) and cannot show that nothing but their order enters.", "anchors": ["src/valor_lite/classification/computation.py::compute_counts", "src/valor_lite/classification/computation.py::compute_rocauc", "src/valor_lite/object_detection/computation.py::rank_pairs", "src/valor_lite/object_detection/computation.py::compute_counts", "src/valor_lite/object_detection/computation.py::compute_average_precision", "src/valor_lite/object_detection/computation.py::compute_pair_classifications"]}
{"id": "C87", "title": "Segmentation metrics depend on pixel counts only", "statement": "Turning, mirroring or shuffling the pixels of the images (the same way for all masks of an image), or enlarging all images by an integer factor, changes no number in the segmentation report: accuracy, precision, recall, F1, IOU, mean IOU and all entries of the confusion matrix.", "quantifier": "for all datasets, all rearrangements of the pixels of each image and all factors; segmentation of images with one mask per label on each side, fewer than 2^64 pixels altogether", "why_tests_cant": "The counts come from bit operations on flattened arrays and matrix bookkeeping for background; tests use a few arrays of fixed shape and cannot settle independence of the arrangement for all shapes.", "anchors": ["src/valor_lite/semantic_segmentation/computation.py::compute_intermediates", "src/valor_lite/semantic_segmentation/computation.py::compute_metrics", "src/valor_lite/semantic_segmentation/evaluator.py::Evaluator.compute_precision_recall_iou"]}
{"id": "C88", "title": "Evaluator.load opens complete evaluations only", "statement": "If Evaluator.load succeeds on a directory, then the directory holds a complete evaluation: creation by Builder.persistent has run to its end, and the metrics are those of the evaluator that finalize returned. A program that stops in the middle of persistent or finalize leaves a directory that is rejected.", "quantifier": "every declaration, configuration, state of the path before the call, and every point of interruption", "why_tests_cant": "Tests load directories after a complete run only; the points of interruption and the leftovers of earlier runs are not enumerable by hand.", "anchors": ["src/valor_lite/object_detection/evaluator.py::Builder.persistent", "src/valor_lite/object_detection/evaluator.py::Builder.finalize", "src/valor_lite/object_detection/evaluator.py::Evaluator.load", "src/valor_lite/classification/evaluator.py::Builder.persistent", "src/valor_lite/classification/evaluator.py::Builder.finalize", "src/valor_lite/classification/evaluator.py::Evaluator.load", "src/valor_lite/semantic_segmentation/evaluator.py::Builder.persistent", "src/valor_lite/semantic_segmentation/evaluator.py::Builder.finalize", "src/valor_lite/semantic_segmentation/evaluator.py::Evaluator.load"]}
{"id": "C89", "title": "Labels do not influence each other", "statement": "The counts and metrics of a label in an object detection evaluation (ground truths, true and false positives, false negatives, precision, recall, F1) depend only on the annotations that carry that label: annotations of other labels can be added, removed or changed, in the same images or in other ones, without effect.", "quantifier": "for all pairs of datasets that agree on the annotations of the label, all thresholds, orders of adding and cache layouts; detection with at most 100000 labels and 2^31 annotations and datums", "why_tests_cant": "Ids, ranking and matching are computed over all labels together; that nothing leaks from one label to another must hold for every other content of the dataset, not for some.", "anchors": ["src/valor_lite/object_detection/computation.py::rank_pairs", "src/valor_lite/object_detection/computation.py::compute_counts", "src/valor_lite/object_detection/evaluator.py::Evaluator.compute_precision_recall"]}
{"id": "C90", "title": "More predictions never lose a found object", "statement": "Adding predictions to a detection dataset never lowers the true positives or the recall of any label. A prediction that finds no new object, in particular a duplicate of another prediction, changes no true positive, adds at most one false positive per label and never raises precision or F1.", "quantifier": "for all datasets, all added predictions at all places, all thresholds, labels and cache layouts; no prediction with a repeated label, at most 100000 labels and 2^31 annotations and datums", "why_tests_cant": "Every added row may change which pair a prediction keeps, the order of the ranking and the running boundaries of ground truths; tests try single additions.", "anchors": ["src/valor_lite/object_detection/computation.py::rank_pairs", "src/valor_lite/object_detection/computation.py::calculate_ranking_boundaries", "src/valor_lite/object_detection/computation.py::compute_counts", "src/valor_lite/object_detection/evaluator.py::Evaluator.compute_precision_recall"]}
{"id": "C91", "title": "The order in which annotations are listed in a detection does not matter", "statement": "Listing the ground truths or the predictions of a Detection in another order leaves the ground-truth, true-positive, false-positive and false-negative counts of every label unchanged at all thresholds, and with them precision-recall curve and average precision.", "quantifier": "for all datasets, all permutations of the annotations of each detection, all thresholds and cache layouts; detection with at most 100000 labels and 2^31 annotations and datums", "why_tests_cant": "The number of orders grows factorially, and ties are broken by position.", "anchors": ["src/valor_lite/object_detection/loader.py::Loader._add_data", "src/valor_lite/object_detection/computation.py::rank_pairs", "src/valor_lite/object_detection/computation.py::compute_counts", "src/valor_lite/object_detection/evaluator.py::Evaluator.compute_precision_recall"]}
{"id": "C92", "title": "The precision-recall curve is the upper envelope of the reported operating points", "statement": "For each label and IoU threshold, the value of the precision-recall curve at recall level j/100 is the best precision that compute_precision_recall reports for a score threshold whose recall is at least j/100 (0 if there is none), and average precision is the mean of the 101 values. In particular no reported (recall, precision) point lies above the curve.", "quantifier": "for all datasets, labels, positive IoU thresholds, all real score thresholds, recall levels and cache layouts; detection with at most 100000 labels and 2^31 annotations and datums", "why_tests_cant": "The curve is accumulated over chunks of ranked predictions with running counts, the operating points by masks per threshold; agreement at every one of infinitely many thresholds cannot be tested.", "anchors": ["src/valor_lite/object_detection/computation.py::compute_counts", "src/valor_lite/object_detection/computation.py::compute_average_precision", "src/valor_lite/object_detection/computation.py::compute_precision_recall_f1", "src/valor_lite/object_detection/evaluator.py::Evaluator.compute_precision_recall"]}
{"id": "C93", "title": "Detection results do not depend on the coordinate system", "statement": "Moving the origin of an image, mirroring it, exchanging its axes or changing the unit of length on either axis (pixels or fractions of the image) does not change the IoU of any pair of boxes, and so no reported metric changes. For bitmasks, rearranging the pixels of an image or raising its resolution changes nothing, and boxes with integer corners get the same IoU as the masks of the pixels that they cover.", "quantifier": "for all boxes, offsets, positive scale factors (one per image and axis), masks, resolutions and datasets", "why_tests_cant": "The coordinates range over all reals; tests compare a few boxes in a single coordinate system.", "anchors": ["src/valor_lite/object_detection/computation.py::compute_bbox_iou", "src/valor_lite/object_detection/computation.py::compute_bitmask_iou", "src/valor_lite/object_detection/loader.py::Loader.add_bounding_boxes", "src/valor_lite/object_detection/loader.py::Loader.add_bitmasks"]}
{"id": "C94", "title": "Filters compose", "statement": "Filtering an already filtered evaluator leaves the same cache content as filtering once with the conjunction of the datum conditions, of the ground truth conditions and of the prediction conditions. Hence the order of two filters does not matter and repeating a filter changes nothing.", "quantifier": "for all datasets, conditions, batch sizes and cache layouts of the evaluators involved, for classification, detection and segmentation", "why_tests_cant": "Conditions are arbitrary expressions and the intermediate evaluator may be cut into files in any way; tests filter once with a few expressions.", "anchors": ["src/valor_lite/classification/evaluator.py::Evaluator.filter", "src/valor_lite/object_detection/evaluator.py::Evaluator.filter", "src/valor_lite/semantic_segmentation/evaluator.py::Evaluator.filter"]}
{"id": "C95", "title": "A reported metric is identified by its type and parameters", "statement": "In the result of compute_precision_recall (classification, object detection) and compute_precision_recall_iou (segmentation), two entries with the same type and the same parameters have the same value, so a caller may index the metrics by (type, parameters); the report has exactly one entry per requested label and threshold combination and no other entry. The same holds for the classification confusion matrices.", "quantifier": "all loading histories, label names, threshold lists (also with repetitions) and modes; classification with at most 100000 distinct labels (C20)", "why_tests_cant": "tests look up single entries of small reports with distinct sorted thresholds; they never compare all pairs of entries of a report", "anchors": ["src/valor_lite/classification/metric.py::Metric", "src/valor_lite/object_detection/metric.py::Metric", "src/valor_lite/semantic_segmentation/metric.py::Metric", "src/valor_lite/classification/utilities.py::unpack_precision_recall", "src/valor_lite/classification/utilities.py::unpack_confusion_matrix", "src/valor_lite/object_detection/utilities.py::unpack_precision_recall_into_metric_lists"]}
{"id": "C96", "title": "Ids survive the detour through float64 arrays", "statement": "Object detection puts the integer id columns together with scores and IOUs into one float64 array, compares ids there and converts them back with astype(int64). As long as there are at most 2^53 datums, annotations and labels, no id changes, and ids are equal or in order as doubles exactly when they are as integers, for every row a Loader writes.", "quantifier": "all loading histories with at most 2^53 datums, ground truths, predictions and labels", "why_tests_cant": "a test cannot reach ids near 2^53; precision loss would silently merge annotations", "anchors": ["src/valor_lite/object_detection/evaluator.py::Evaluator.filter", "src/valor_lite/object_detection/computation.py::rank_table", "src/valor_lite/object_detection/computation.py::rank_pairs"]}
{"id": "C97", "title": "get_info with conditions previews filter with the same conditions", "statement": "The numbers that get_info reports for given conditions are the numbers that the evaluator returned by filter with the same conditions reports: datums, labels, ground truths and predictions (detection), pixels, ground truth pixels and prediction pixels (segmentation), and rows.", "quantifier": "for all loading histories, conditions and cache layouts of the two evaluators, for classification, detection and segmentation", "why_tests_cant": "get_info and filter evaluate the conditions in different ways (per row, and per annotation or label of a datum); the conditions are arbitrary expressions, tests use single comparisons that cannot tell the two apart.", "anchors": ["src/valor_lite/classification/evaluator.py::Evaluator.get_info", "src/valor_lite/classification/evaluator.py::Evaluator.filter", "src/valor_lite/object_detection/evaluator.py::Evaluator.get_info", "src/valor_lite/object_detection/evaluator.py::Evaluator.filter", "src/valor_lite/semantic_segmentation/evaluator.py::Evaluator.get_info", "src/valor_lite/semantic_segmentation/evaluator.py::Evaluator.filter"]}
{"id": "C98", "title": "The number of LLM requests of a metric is known in advance, and a metric names its evaluator", "statement": "Let g be the number of ground truths of the response. Whatever the LLM replies, one compute_* call makes at most (1 + retries) times the requests of one attempt, and one attempt makes at most 1 request for context relevance, hallucination and summary coherence, 2 for answer relevance, bias, faithfulness and toxicity, g for context precision, 2g for context recall and 1 + 2g for answer correctness; compute_all makes at most (1 + retries)(12 + 5g). An attempt that yields a score makes exactly that number of requests, except for bias, faithfulness and toxicity, which may stop after one, and for the context metrics and faithfulness without predicted contexts, which make none. Evaluator.openai refuses a seed together with retries, so that a seeded evaluator makes one attempt for each metric. Every metric returned is of the type of the method or an error, and its parameters name the client's model and the number of retries.", "quantifier": "for all replies of the LLM in any order, all queries, responses and contexts, all numbers of retries, all seeds and model names", "why_tests_cant": "requests cost money and time; tests use a fixed list of mocked replies and a few contexts, so that the bound over all replies (including invalid ones at any position of any attempt) is never exercised", "anchors": ["src/valor_lite/text_generation/manager.py::llm_guided_metric", "src/valor_lite/text_generation/manager.py::Evaluator.openai", "src/valor_lite/text_generation/manager.py::Evaluator.mistral", "src/valor_lite/text_generation/manager.py::Evaluator.compute_all", "src/valor_lite/text_generation/computation.py::calculate_answer_correctness", "src/valor_lite/text_generation/computation.py::calculate_context_precision", "src/valor_lite/text_generation/computation.py::calculate_context_recall", "src/valor_lite/text_generation/computation.py::calculate_bias", "src/valor_lite/text_generation/metric.py::Metric.error", "src/valor_lite/text_generation/metric.py::Metric.bias"]}
{"id": "C99", "title": "A refused datum leaves no trace in the metrics", "statement": "If add_data raises for a datum because the cache refuses its rows (for example metadata of the wrong type) and the caller carries on with the next datum, the evaluator gives the metrics of the datums that were accepted.", "quantifier": "for all sequences of accepted and refused datums, all cache layouts, thresholds and settings, for classification, detection and segmentation; classification with at most 100000 distinct labels (C20); detection with at most 100000 labels and 2^31 annotations and datums", "why_tests_cant": "labels and counters are changed before the rows are written; tests stop at the first exception and never evaluate afterwards.", "anchors": ["src/valor_lite/classification/loader.py::Loader.add_data", "src/valor_lite/classification/loader.py::Loader._add_label", "src/valor_lite/object_detection/loader.py::Loader._add_data", "src/valor_lite/object_detection/loader.py::Loader._add_label", "src/valor_lite/semantic_segmentation/loader.py::Loader.add_data", "src/valor_lite/semantic_segmentation/loader.py::Loader._add_label"]}
{"id": "C100", "title": "Each pair of annotations is stored with the overlap of its own two shapes", "statement": "add_bounding_boxes, add_polygons and add_bitmasks either raise and add nothing, or every ground truth and prediction of a detection are stored together exactly if the overlap of their shapes is at least 1e-9, with this overlap: common area over total area (pixels for masks), 0 if the total area is below 1e-9. add_polygons raises exactly if shapely raises for such a pair, add_bitmasks exactly if masks of one detection differ in shape. The overlap lies in [0, 1], does not depend on the order of the two shapes or on a common motion, is 0 exactly without common area and 1 exactly if the shapes differ by nothing but a set without area. Rectangles given as polygons are treated like bounding boxes.", "quantifier": "for all detections with any numbers of ground truths and predictions, all shapes, all earlier calls; for polygons any library whose areas are exact", "why_tests_cant": "the pairs are flattened into one array and reshaped, so that an exchanged loop or dimension shows only if the numbers of ground truths and predictions differ; the geometric laws range over all shapes.", "anchors": ["src/valor_lite/object_detection/loader.py::Loader.add_bounding_boxes", "src/valor_lite/object_detection/loader.py::Loader.add_polygons", "src/valor_lite/object_detection/loader.py::Loader.add_bitmasks", "src/valor_lite/object_detection/computation.py::compute_bbox_iou", "src/valor_lite/object_detection/computation.py::compute_polygon_iou", "src/valor_lite/object_detection/computation.py::compute_bitmask_iou"]}
{"id": "C101", "title": "Metadata filters select by the annotation's own metadata", "statement": "A condition on a metadata field given to Evaluator.filter keeps exactly the datums, ground truths or predictions whose own metadata satisfy it, where the metadata of the datum stand in for a field that an annotation lacks.", "quantifier": "for all histories, metadata dictionaries, fields and conditions, all cache layouts, for classification, detection and segmentation; segmentation of images with one mask per label on each side, fewer than 2^64 pixels altogether", "why_tests_cant": "rows merge the metadata of datum, ground truth and prediction into the same columns, so that which value a condition sees depends on which annotations happen to overlap; tests use metadata on one kind of object at a time.", "anchors": ["src/valor_lite/object_detection/loader.py::Loader._add_data", "src/valor_lite/semantic_segmentation/loader.py::Loader.add_data", "src/valor_lite/classification/loader.py::Loader.add_data", "src/valor_lite/object_detection/shared.py::generate_schema", "src/valor_lite/object_detection/computation.py::filter_cache", "src/valor_lite/object_detection/evaluator.py::Evaluator.filter", "src/valor_lite/semantic_segmentation/evaluator.py::Evaluator.filter", "src/valor_lite/classification/evaluator.py::Evaluator.filter"]}
{"id": "C102", "title": "Segmentations can be constructed and added in any order", "statement": "A program that constructs segmentations over NumPy arrays and adds them to a loader gets the confusion matrix of the pixels of its arrays, whichever arrays the segmentations share and whether each is added at once or all are constructed first.", "quantifier": "for all programs of constructions and add_data calls in any order, all arrays and ways to share them, all cache layouts", "why_tests_cant": "the constructor writes to the caller's arrays and the loader reads them later, so the result depends on the interleaving and on which arrays are shared; tests build each image from fresh arrays.", "anchors": ["src/valor_lite/semantic_segmentation/annotation.py::Segmentation.__post_init__", "src/valor_lite/semantic_segmentation/annotation.py::Segmentation._validate_bitmasks", "src/valor_lite/semantic_segmentation/loader.py::Loader.add_data"]}
{"id": "C103", "title": "An evaluator does not change when its loader is used further", "statement": "The evaluator that finalize returns keeps giving the metrics of the data that was added before, whatever is added to the loader afterwards.", "quantifier": "for all data added before and after, all cache layouts and both backends, all points at which the evaluator is used again", "why_tests_cant": "the reader of a file cache looks at the directory at each use while the writer may be in the middle of a file or hold rows back; tests use an evaluator at once and drop the loader.", "anchors": ["src/valor_lite/cache/ephemeral.py::MemoryCacheWriter.to_reader", "src/valor_lite/cache/persistent.py::FileCacheWriter.to_reader", "src/valor_lite/cache/persistent.py::FileCacheReader.iterate_tables", "src/valor_lite/semantic_segmentation/evaluator.py::Builder.finalize", "src/valor_lite/object_detection/evaluator.py::Builder.finalize"]}
{"id": "C104", "title": "Exchanging ground truths and predictions of segmentations transposes the report", "statement": "When the masks of the two sides of every segmentation are exchanged, accuracy, mean IoU, and the F1 and IoU of every label stay the same, precision and recall of every label change places, and the confusion matrix is transposed.", "quantifier": "all images with disjoint masks and distinct labels, in any order and batching, every division of the cache into tables; segmentation of images with one mask per label on each side, fewer than 2^64 pixels altogether", "why_tests_cant": "it relates two whole evaluations; a wrong axis in one of the sums shows only for data where the two sides differ in size, and tests fix single examples.", "anchors": ["src/valor_lite/semantic_segmentation/loader.py::Loader.add_data", "src/valor_lite/semantic_segmentation/computation.py::compute_intermediates", "src/valor_lite/semantic_segmentation/computation.py::compute_metrics", "src/valor_lite/semantic_segmentation/evaluator.py::Evaluator.compute_precision_recall_iou"]}
{"id": "C105", "title": "Repeating a dataset does not change curves and areas", "statement": "If every datum of a dataset is added n times, in any order, the metrics that are computed from rankings stay the same: the precision-recall curve of every label, its average precision, the scores along the curve, and the ROC AUC of every label of a classification dataset.", "quantifier": "all datasets and all n > 0, all IoU thresholds above 0, all labels, every batching and storage layout; detections with at most 100000 labels and 2^31 annotations and datums, predictions with distinct labels", "why_tests_cant": "it relates two evaluations of which one is n times as large; ties in the ranking only appear with the repetition, and curves of small fixtures do not show a wrong interpolation between tied predictions.", "anchors": ["src/valor_lite/object_detection/computation.py::rank_table", "src/valor_lite/object_detection/computation.py::compute_counts", "src/valor_lite/object_detection/computation.py::compute_average_precision", "src/valor_lite/object_detection/evaluator.py::Evaluator.compute_precision_recall", "src/valor_lite/classification/computation.py::compute_rocauc", "src/valor_lite/classification/evaluator.py::Evaluator.compute_rocauc"]}
{"id": "C106", "title": "A prediction that finds a new object never hurts", "statement": "If a prediction is added to a detection dataset that finds, at an IoU threshold, an object of a label that no other prediction finds, then for this label and IoU threshold there is one true positive more and one false negative less at the score thresholds it passes, the false positives stay, and neither precision, recall, F1, any value of the precision-recall curve nor the average precision goes down.", "quantifier": "all datasets, all added predictions, all thresholds with IoU threshold above 0, every batching and storage layout; no prediction with a repeated label, at most 100000 labels and 2^31 annotations and datums; curve and average precision for labels to which no two predictions of the dataset give the same score", "why_tests_cant": "it relates two evaluations of arbitrary datasets; a test shows it for one added prediction at a time.", "anchors": ["src/valor_lite/object_detection/computation.py::rank_table", "src/valor_lite/object_detection/computation.py::compute_counts", "src/valor_lite/object_detection/computation.py::compute_precision_recall_f1", "src/valor_lite/object_detection/computation.py::compute_average_precision", "src/valor_lite/object_detection/evaluator.py::Evaluator.compute_precision_recall"]}
{"id": "C107", "title": "A stored evaluation can be loaded again", "statement": "Evaluator.load on the directory of an evaluation, also of one that was made by filter, gives an evaluator that reports the same metrics as the evaluator that finalize or filter returned.", "quantifier": "all datasets, all filter expressions, all thresholds, every batching and storage layout; with index_to_label_override the labels are those given; without it: no label that the filter removed was first seen before a label that is left; detection with no prediction with a repeated label, at most 100000 labels and 2^31 annotations and datums", "why_tests_cant": "a test loads one directory; whether the loaded labels still fit the stored ids depends on which labels a filter removes and on the order in which they were first seen.", "anchors": ["src/valor_lite/object_detection/evaluator.py::Evaluator.load", "src/valor_lite/object_detection/evaluator.py::Evaluator.filter", "src/valor_lite/object_detection/evaluator.py::Builder.finalize", "src/valor_lite/object_detection/evaluator.py::Evaluator.compute_precision_recall", "src/valor_lite/object_detection/shared.py::extract_labels", "src/valor_lite/classification/evaluator.py::Evaluator.load", "src/valor_lite/classification/evaluator.py::Evaluator.filter", "src/valor_lite/semantic_segmentation/evaluator.py::Evaluator.load"]}
{"id": "C108", "title": "A label that occurs on one side only scores zero", "statement": "A label that is in the evaluation because of ground truths only, or because of predictions only, is reported by every per-label metric with the value 0 (precision, recall, F1, AP, AR, IOU, ROCAUC), never as missing, NaN or an error. It has no true positives; without ground truths it has no false negatives, without predictions no false positives, and in detection all its ground truths are false negatives.", "quantifier": "all datasets and labels, all thresholds, every storage layout, every division of the ROC curve into tables; detection with at most 100000 labels and 2^31 annotations and datums, classification with at most 10^9 predictions, segmentation with at most 2^64 pixels and disjoint masks with distinct labels", "why_tests_cant": "the divisions by zero are guarded in different ways in each metric and the guard of one metric (unsigned subtraction, curve with no points, wrap around of the negatives) is reached only for such labels.", "anchors": ["src/valor_lite/object_detection/evaluator.py::Evaluator.compute_precision_recall", "src/valor_lite/object_detection/computation.py::compute_counts", "src/valor_lite/object_detection/computation.py::compute_precision_recall_f1", "src/valor_lite/object_detection/computation.py::compute_average_recall", "src/valor_lite/object_detection/computation.py::compute_average_precision", "src/valor_lite/classification/evaluator.py::Evaluator.compute_precision_recall", "src/valor_lite/classification/evaluator.py::Evaluator.compute_rocauc", "src/valor_lite/classification/computation.py::compute_rocauc", "src/valor_lite/classification/computation.py::compute_precision", "src/valor_lite/classification/computation.py::compute_recall", "src/valor_lite/classification/computation.py::compute_f1_score", "src/valor_lite/semantic_segmentation/evaluator.py::Evaluator.compute_precision_recall_iou", "src/valor_lite/semantic_segmentation/computation.py::compute_metrics"]}
{"id": "C109", "title": "ROCAUC is a number between 0 and 1", "statement": "compute_rocauc reports one ROCAUC for every label and one mROCAUC; every value is at least 0 and at most 1.", "quantifier": "all datasets, every storage layout, every order and division of the sorted rows and every division of the ROC curve into tables; at most 1: classifications that score their own ground truth label and name no label twice", "why_tests_cant": "the negatives of a label are not counted but taken as a difference of unsigned counts; whether that difference is the number of negatives depends on which labels each prediction leaves out, and the curve is summed piece by piece over tables.", "anchors": ["src/valor_lite/classification/evaluator.py::Evaluator.compute_rocauc", "src/valor_lite/classification/evaluator.py::Builder.finalize", "src/valor_lite/classification/computation.py::compute_rocauc", "src/valor_lite/classification/shared.py::extract_groundtruth_count_per_label"]}
{"id": "C110", "title": "Better scores never hurt", "statement": "Detection: if a prediction gives a label a higher score, neither the true positives nor the recall of the label go down; if it is the only prediction that finds an object and gets a higher score, or finds no object and gets a lower score, then in addition false positives do not go up and neither precision, F1, any value of the precision-recall curve nor the average precision goes down. Classification: if every datum scores its ground truth label at least as high as before and every other label at most as high, then accuracy, the recall of every label and its ROCAUC do not go down, and without hardmax precision and F1 of every label do not go down either.", "quantifier": "all datasets and changes of scores, all thresholds with IoU threshold above 0, every order of adding and storage layout; no prediction with a repeated label, at most 100000 labels and 2^31 annotations and datums; curve and average precision for labels to which no two predictions give the same score; classification with scores that are not negative; ROCAUC under the conditions of C21", "why_tests_cant": "it relates two evaluations of arbitrary datasets; a test compares one pair of them.", "anchors": ["src/valor_lite/object_detection/computation.py::rank_table", "src/valor_lite/object_detection/computation.py::compute_counts", "src/valor_lite/object_detection/computation.py::compute_precision_recall_f1", "src/valor_lite/object_detection/computation.py::compute_average_precision", "src/valor_lite/object_detection/evaluator.py::Evaluator.compute_precision_recall", "src/valor_lite/classification/computation.py::compute_rocauc", "src/valor_lite/classification/computation.py::compute_counts", "src/valor_lite/classification/computation.py::compute_precision", "src/valor_lite/classification/computation.py::compute_recall", "src/valor_lite/classification/computation.py::compute_accuracy", "src/valor_lite/classification/evaluator.py::Evaluator.compute_precision_recall", "src/valor_lite/classification/evaluator.py::Evaluator.compute_rocauc"]}
{"id": "C111", "title": "Correcting pixels never hurts", "statement": "If predictions of a segmentation dataset are changed only at pixels where they become the true ones (the true label, or background), then accuracy and the precision, recall, F1 and IOU of every label do not go down, and mean IOU does not go down unless the change brings in a label that was not there.", "quantifier": "for all datasets and all corrections, every batching and storage layout; images with disjoint masks and one mask per label on each side, fewer than 2^64 pixels altogether", "why_tests_cant": "Relates two evaluations over all possible corrections; a single number that moves the wrong way for a rare pattern of labels is not seen by tests of fixed numbers.", "anchors": ["src/valor_lite/semantic_segmentation/computation.py::compute_metrics", "src/valor_lite/semantic_segmentation/evaluator.py::Evaluator.compute_precision_recall_iou"]}
{"id": "C112", "title": "Coarser labels never score worse than the worst of their parts", "statement": "If the labels of a segmentation dataset are replaced by coarser ones (several labels get the same name and their masks are united), the accuracy does not go down, and precision, recall, F1 and IOU of a coarse label are at least the least of those of the labels it is made of.", "quantifier": "for all datasets and all ways to name labels, every batching and storage layout; images with disjoint masks and one mask per label on each side, fewer than 2^64 pixels altogether", "why_tests_cant": "Relates two evaluations with different label sets and matrices of different size; the relation must hold for every pattern of labels.", "anchors": ["src/valor_lite/semantic_segmentation/computation.py::compute_metrics", "src/valor_lite/semantic_segmentation/evaluator.py::Evaluator.compute_precision_recall_iou"]}
{"id": "C113", "title": "Tighter boxes never hurt", "statement": "If predicted boxes of a detection dataset are redrawn so that each still overlaps most the object of each label that it overlapped most, at least as much as before, and none overlaps a label it did not overlap, then at every IoU and score threshold true positives, precision, recall and F1 of every label do not go down, false positives and false negatives do not go up, and neither does any value of the precision-recall curve nor the average precision go down. It is not enough that no overlap gets smaller: a box that grows over another object can take a true positive away.", "quantifier": "all datasets, any number of redrawn boxes, all thresholds, every order of adding and storage layout; no prediction with a repeated label, at most 100000 labels and 2^31 annotations and datums; curve and average precision at IoU thresholds above 0 for labels to which no two predictions give the same score", "why_tests_cant": "it relates two evaluations of arbitrary datasets at all thresholds; a test compares one pair of them.", "anchors": ["src/valor_lite/object_detection/computation.py::rank_table", "src/valor_lite/object_detection/computation.py::compute_counts", "src/valor_lite/object_detection/computation.py::compute_precision_recall_f1", "src/valor_lite/object_detection/computation.py::compute_average_precision", "src/valor_lite/object_detection/evaluator.py::Evaluator.compute_precision_recall"]}
{"id": "C114", "title": "Several ground truths count as the best of them", "statement": "If the LLM answers the same message always in the same way, then computing a guided metric again gives the same outcome; answer correctness and context recall for several ground truths are the largest of the scores for each ground truth alone, so further ground truths never lower them; and neither order nor repetition of ground truths changes answer correctness, context recall or context precision. Context precision is different: a further ground truth can lower it.", "quantifier": "for all LLMs whose reply depends on the message only, all queries, responses, contexts and non-empty lists of ground truths, any number of retries; whatever was asked before", "why_tests_cant": "it relates several evaluations with different lists of ground truths, for every LLM; tests use one canned list of replies in one order.", "anchors": ["src/valor_lite/text_generation/computation.py::calculate_answer_correctness", "src/valor_lite/text_generation/computation.py::calculate_context_recall", "src/valor_lite/text_generation/computation.py::calculate_context_precision", "src/valor_lite/text_generation/manager.py::Evaluator.compute_answer_correctness", "src/valor_lite/text_generation/manager.py::Evaluator.compute_context_recall", "src/valor_lite/text_generation/manager.py::Evaluator.compute_context_precision", "src/valor_lite/text_generation/manager.py::llm_guided_metric"]}
{"id": "C115", "title": "The confusion matrix of detection is the greedy matching of the annotations", "statement": "For predictions with one label, the confusion matrix follows from the annotations alone: each detection has exactly one greedy matching (one to one among overlapping pairs; a pair that is left out shares an annotation with a chosen pair of higher score, or of the same score and larger overlap, or, if these are equal too, that is listed first), a cell counts the matched pairs with its labels that pass both thresholds, and the unmatched counts are the annotations in no such pair. If no two competing pairs have equal score and overlap, the order in which annotations are listed does not matter.", "quantifier": "for all datasets with one label per prediction, all thresholds and labels, every sequence of add calls and storage layout; at most 100000 labels and 2^31 annotations and datums", "why_tests_cant": "uniqueness of the matching and the counts over arbitrary datasets and cache layouts; tests count one small matrix.", "anchors": ["src/valor_lite/object_detection/computation.py::mask_pairs_greedily", "src/valor_lite/object_detection/computation.py::compute_pair_classifications", "src/valor_lite/object_detection/computation.py::compute_confusion_matrix", "src/valor_lite/object_detection/evaluator.py::Evaluator.compute_confusion_matrix", "src/valor_lite/object_detection/loader.py::Loader._add_data"]}
{"id": "C116", "title": "Exchanging ground truths and predictions transposes the confusion matrix of detection", "statement": "To compare two annotators one is used as ground truth and the other as prediction, with one score for all boxes. Exchanging them transposes the confusion matrix at every IoU threshold and exchanges unmatched ground truths and unmatched predictions; ties between overlaps included.", "quantifier": "for all datasets with one label per prediction and one score, at or above the score threshold and above 1e-9, per detection, all IoU thresholds, every order of adding and storage layout; at most 100000 labels and 2^31 annotations and datums", "why_tests_cant": "it relates two evaluations of arbitrary datasets; the loops of the code treat the two sides differently and a test covers one pair.", "anchors": ["src/valor_lite/object_detection/computation.py::mask_pairs_greedily", "src/valor_lite/object_detection/computation.py::compute_pair_classifications", "src/valor_lite/object_detection/computation.py::compute_confusion_matrix", "src/valor_lite/object_detection/evaluator.py::Evaluator.compute_confusion_matrix", "src/valor_lite/object_detection/loader.py::Loader._add_data"]}
{"id": "C117", "title": "A score threshold leaves out the predictions below it", "statement": "Evaluating a detection dataset at score thresholds from s on gives the same as evaluating the dataset without the predictions whose scores are all below s: at every IoU threshold the ground truth counts, true and false positives and false negatives of every label are equal, and for predictions with one label so are all confusion matrix cells and unmatched counts, although the low scores take part in ranking and matching. It is not so for IoU thresholds: an overlap below the threshold can take the ground truth from the prediction that covers it.", "quantifier": "for all datasets, any s, all score thresholds from s on, all IoU thresholds and labels, every order of adding and storage layout; no prediction with a repeated label, at most 100000 labels and 2^31 annotations and datums", "why_tests_cant": "it relates two evaluations of arbitrary datasets; low scores could influence ranking and matching of the others, which one example cannot exclude.", "anchors": ["src/valor_lite/object_detection/computation.py::rank_table", "src/valor_lite/object_detection/computation.py::compute_counts", "src/valor_lite/object_detection/computation.py::mask_pairs_greedily", "src/valor_lite/object_detection/computation.py::compute_pair_classifications", "src/valor_lite/object_detection/computation.py::compute_confusion_matrix", "src/valor_lite/object_detection/evaluator.py::Evaluator.compute_precision_recall", "src/valor_lite/object_detection/evaluator.py::Evaluator.compute_confusion_matrix"]}
{"id": "C118", "title": "Classification accuracy is the average of the labels", "statement": "With winner-take-all counting (hardmax), accuracy is the mean of the per-label recalls weighted by the number of datums of each label, at every threshold. The true and false positives of all labels together never exceed the number of datums, so the overall precision is at least the accuracy; if every datum has a score that reaches the threshold, overall precision, overall recall and accuracy are equal, and with two labels the false positives of one are the false negatives of the other.", "quantifier": "for all datasets with at most 100000 labels and no label listed twice in one prediction, all thresholds, every order of adding and table layout", "why_tests_cant": "identities between reported numbers over arbitrary datasets; tests check each reported number of a few datasets on its own.", "anchors": ["src/valor_lite/classification/computation.py::compute_counts", "src/valor_lite/classification/computation.py::compute_accuracy", "src/valor_lite/classification/computation.py::compute_recall", "src/valor_lite/classification/evaluator.py::Evaluator.compute_precision_recall"]}
{"id": "C119", "title": "More retries never change a score", "statement": "With more retries a guided metric that reports a score reports the same score after the same requests, and an exception stays the same exception; only an error metric can change. If the LLM answers the same message always in the same way, the number of retries changes nothing, and each entry of compute_all is what the single method returns on its own, whenever it is called.", "quantifier": "for all LLMs, all queries, responses and contexts, all pairs of nonnegative numbers of retries, all ten guided metrics; the second sentence for all LLMs whose reply depends on the message only", "why_tests_cant": "it relates runs with different numbers of retries for every possible LLM; tests mock single sequences of replies.", "anchors": ["src/valor_lite/text_generation/manager.py::llm_guided_metric", "src/valor_lite/text_generation/manager.py::Evaluator.compute_answer_correctness", "src/valor_lite/text_generation/manager.py::Evaluator.compute_bias", "src/valor_lite/text_generation/manager.py::Evaluator.compute_all"]}
{"id": "C120", "title": "Average precision is limited by the recall that is reached", "statement": "In one report of compute_precision_recall, for positive IoU thresholds: the average precision of a label is at least the precision at any requested score threshold times the part of the 101 recall levels that the recall at this threshold reaches; if the score threshold leaves out no prediction of the label (score threshold 0, for instance), it is at most the part of the levels reached, and it is 0 exactly if the recall is 0. Averaged over the IoU thresholds, AP <= AR + (1 - AR) / 101 at such a score threshold, for each label and for mAP and mAR.", "quantifier": "for all datasets, labels, lists of positive IoU thresholds and of score thresholds, batch sizes and cache layouts; at most 100000 labels and 2^31 annotations and datums; exact arithmetic", "why_tests_cant": "Average precision and average recall come from different arrays that are filled by different code; tests compare each with fixed numbers and never one with the other, and a bound over all datasets cannot be tested.", "anchors": ["src/valor_lite/object_detection/computation.py::compute_counts", "src/valor_lite/object_detection/computation.py::compute_precision_recall_f1", "src/valor_lite/object_detection/computation.py::compute_average_recall", "src/valor_lite/object_detection/computation.py::compute_average_precision", "src/valor_lite/object_detection/utilities.py::unpack_precision_recall_into_metric_lists", "src/valor_lite/object_detection/evaluator.py::Evaluator.compute_precision_recall"]}
{"id": "C121", "title": "Reversed scores mirror the ROC area, and two classes share it", "statement": "In a two-class dataset in which every datum scores both labels and the score of one label falls as the score of the other rises (s and 1 - s), both labels have the same ROC AUC. Putting all scores on a scale that turns their order around (for instance distances instead of similarities) turns the ROC AUC A of a label with positive and negative datums into 1 - A.", "quantifier": "for all datasets, all scores with arbitrary ties, all decreasing scales, batch sizes and cache layouts", "why_tests_cant": "A statement about two computations for all assignments of scores; the tests fix a few score vectors and compare with stored numbers.", "anchors": ["src/valor_lite/classification/computation.py::compute_rocauc", "src/valor_lite/classification/evaluator.py::Evaluator.compute_rocauc"]}
{"id": "C122", "title": "Filtering a detection evaluator is evaluating the selected annotations", "statement": "Filter a detection evaluator by conditions on what the user gave (datums by uid, ground truths by uid and label, predictions by uid, label and score), and build a second evaluator from scratch by adding only the selected datums, with only the selected ground truths and only the selected labels of each prediction. For every label, IoU threshold and score threshold both report the same number of ground truths, true positives, false positives and false negatives, the same precision-recall curve and average precision, and the same confusion matrix with unmatched ground truths and predictions: nothing of a filtered out annotation influences the metrics of the remaining ones.", "quantifier": "all datasets and their division into add calls, all such conditions, all IoU and score thresholds, all batch sizes and file layouts of the caches of the original, the filtered and the second evaluator", "why_tests_cant": "filter never removes the pairs of a dropped annotation from the cache: it blanks one side of them and leaves rows of one side, with ids of the original dataset. Whether such leftovers take part in matching, ranking or counting depends on how many pairs share an annotation and where they are stored; tests compare a few hand-computed filtered results.", "anchors": ["src/valor_lite/object_detection/evaluator.py::Evaluator.filter", "src/valor_lite/object_detection/evaluator.py::Evaluator.compute_precision_recall", "src/valor_lite/object_detection/evaluator.py::Evaluator.compute_confusion_matrix", "src/valor_lite/object_detection/computation.py::rank_pairs", "src/valor_lite/object_detection/computation.py::rank_table", "src/valor_lite/object_detection/computation.py::calculate_ranking_boundaries", "src/valor_lite/object_detection/computation.py::compute_counts", "src/valor_lite/object_detection/computation.py::compute_precision_recall_f1", "src/valor_lite/object_detection/computation.py::compute_average_precision", "src/valor_lite/object_detection/computation.py::mask_pairs_greedily", "src/valor_lite/object_detection/computation.py::compute_pair_classifications", "src/valor_lite/object_detection/computation.py::compute_confusion_matrix", "src/valor_lite/object_detection/loader.py::Loader._add_data", "src/valor_lite/object_detection/evaluator.py::Builder.finalize"]}
{"id": "C123", "title": "Filtering a classification evaluator is evaluating the selected predictions", "statement": "Filter a classification evaluator by conditions on what the user gave (datums by uid and metadata, ground truths by label, predictions by label and score), and build a second evaluator from scratch by adding only the selected datums with only their selected predictions, leaving out datums without any. For every threshold and hardmax setting both report the same number of datums, the same accuracy, for every label the same counts, precision, recall and F1, the same confusion matrix with unmatched ground truths, and the same ROC area of every label.", "quantifier": "all datasets and their division into add calls, all such conditions, all thresholds, both hardmax settings, all batch sizes and file layouts of the caches of the original, the filtered and the second evaluator", "why_tests_cant": "filter copies rows that were computed with all predictions of the datum in view (the winner flag, the ids) and selects them by datum and label id, not by prediction. Whether a copied row still says what a fresh row would say depends on which other predictions of the datum are dropped; tests filter a few hand-made datasets.", "anchors": ["src/valor_lite/classification/evaluator.py::Evaluator.filter", "src/valor_lite/classification/evaluator.py::Evaluator.compute_precision_recall", "src/valor_lite/classification/evaluator.py::Evaluator.compute_confusion_matrix", "src/valor_lite/classification/evaluator.py::Evaluator.compute_rocauc", "src/valor_lite/classification/computation.py::compute_rocauc", "src/valor_lite/classification/computation.py::compute_counts", "src/valor_lite/classification/computation.py::compute_accuracy", "src/valor_lite/classification/computation.py::compute_pair_classifications", "src/valor_lite/classification/computation.py::compute_confusion_matrix", "src/valor_lite/classification/loader.py::Loader.add_data"]}
{"id": "C124", "title": "The averages over labels of a filtered evaluator are those of an evaluator of the selected data", "statement": "Filter an evaluator and build a second one from scratch by adding only the selected datums and annotations. The metrics that average over labels (mean IoU of semantic segmentation; mAP and mAR of object detection; the mean ROC area of classification) are the same in both.", "quantifier": "all datasets and their division into add calls, all conditions on what the user gave, all thresholds, all batch sizes and file layouts of the caches of the original, the filtered and the second evaluator", "why_tests_cant": "An average over labels depends on which labels there are, not only on the rows that are counted. Whether the filtered evaluator has the labels of the selected data depends on how the labels of the original are handed on; tests compare filtered metrics against hand-computed values of datasets in which every label survives.", "anchors": ["src/valor_lite/classification/evaluator.py::Evaluator.filter", "src/valor_lite/classification/evaluator.py::Evaluator.compute_rocauc", "src/valor_lite/semantic_segmentation/evaluator.py::Evaluator.filter", "src/valor_lite/semantic_segmentation/evaluator.py::Evaluator.compute_precision_recall_iou", "src/valor_lite/object_detection/evaluator.py::Evaluator.filter", "src/valor_lite/object_detection/evaluator.py::Evaluator.compute_precision_recall"]}
{"id": "C125", "title": "Images without annotations change nothing", "statement": "Adding images that have neither ground truths nor predictions changes no metric that is computed from annotations: all metrics of the detection report, the detection confusion matrix with its unmatched ground truths and predictions, and of semantic segmentation precision, recall, F1 and IoU of every label, mean IoU and the confusion matrix. The pixel accuracy of semantic segmentation counts every pixel of such an image as right.", "quantifier": "all datasets, all positions and numbers of such images and divisions into add calls, all thresholds, all batch sizes and file layouts of the caches with and without these images", "why_tests_cant": "Such images shift the datum numbers, the batches and the files, which are the keys of ranking, matching and grouping. A test can add a blank image to one fixed dataset, not to every dataset at every position.", "anchors": ["src/valor_lite/object_detection/loader.py::Loader._add_data", "src/valor_lite/object_detection/evaluator.py::Evaluator.compute_precision_recall", "src/valor_lite/object_detection/evaluator.py::Evaluator.compute_confusion_matrix", "src/valor_lite/semantic_segmentation/loader.py::Loader.add_data", "src/valor_lite/semantic_segmentation/evaluator.py::Evaluator.compute_precision_recall_iou"]}
{"id": "C126", "title": "Pixel accuracy is the mean of the labels", "statement": "The accuracy of a semantic segmentation report, times the number of pixels, is the sum over the labels of recall times ground truth pixels plus the pixels that are background on both sides, and likewise the sum of precision times predicted pixels plus these pixels. If every pixel has a ground truth label, the accuracy lies between the smallest and the largest recall of the labels in the ground truth.", "quantifier": "all datasets of segmentations with fewer than 2^64 pixels and at least one label, all divisions into add calls, all file layouts of the cache", "why_tests_cant": "Accuracy, recall and precision are computed by separate code from separate sums; tests compare each with fixed numbers. A relation between them for all datasets cannot be tested.", "anchors": ["src/valor_lite/semantic_segmentation/computation.py::compute_metrics", "src/valor_lite/semantic_segmentation/evaluator.py::Evaluator.compute_precision_recall_iou", "src/valor_lite/semantic_segmentation/loader.py::Loader.add_data"]}
{"id": "C127", "title": "Coarser labels of classifications never score worse than the worst of their parts", "statement": "If the labels of a classification dataset are replaced by coarser ones (several labels get the same name, ground truths and predictions alike, and the top prediction of each datum stays the top prediction), then with hardmax the accuracy does not go down at any threshold, and precision, recall and F1 of a coarse label are at least the least of those of the labels it is made of.", "quantifier": "for all datasets and all ways to name labels, whether a prediction keeps its parts side by side under the new name or merges them, all thresholds, orders of adding and cache layouts; at most 100000 labels (C20)", "why_tests_cant": "Relates two evaluations with different label sets; the relation must hold for every pattern of labels and scores.", "anchors": ["src/valor_lite/classification/loader.py::Loader.add_data", "src/valor_lite/classification/computation.py::compute_counts", "src/valor_lite/classification/computation.py::compute_precision", "src/valor_lite/classification/computation.py::compute_recall", "src/valor_lite/classification/computation.py::compute_accuracy", "src/valor_lite/classification/evaluator.py::Evaluator.compute_precision_recall"]}
{"id": "C128", "title": "A datum that is classified correctly never hurts, another one never helps", "statement": "Add one more classification to a dataset and evaluate with hardmax. If its top prediction is its ground truth with a score that reaches the threshold, the accuracy and the precision, recall and F1 of every label do not go down; otherwise none of them goes up. Without hardmax the same holds of a datum whose only prediction that counts is its ground truth, and of a datum whose ground truth has no prediction that counts.", "quantifier": "for all datasets, all further datums (also with new labels or listing a label twice), all thresholds, orders of adding and cache layouts; at most 100000 labels (C20)", "why_tests_cant": "Relates two evaluations for every dataset and every further datum; tests compare single datasets with stored numbers.", "anchors": ["src/valor_lite/classification/loader.py::Loader.add_data", "src/valor_lite/classification/computation.py::compute_counts", "src/valor_lite/classification/computation.py::compute_precision", "src/valor_lite/classification/computation.py::compute_recall", "src/valor_lite/classification/computation.py::compute_f1_score", "src/valor_lite/classification/computation.py::compute_accuracy", "src/valor_lite/classification/evaluator.py::Evaluator.compute_precision_recall"]}
{"id": "C129", "title": "An image that is segmented perfectly never hurts, one in which nothing is found never helps", "statement": "Add one more image to a segmentation dataset. If every pixel is predicted correctly, the accuracy, the precision, recall, F1 and IoU of every label and the mean IoU do not go down. If no labelled pixel is predicted correctly, precision, recall, F1 and IoU of every label and the mean IoU do not go up, nor does the accuracy unless the image has pixels that are background on both sides.", "quantifier": "for all datasets of images with disjoint masks and distinct labels per image, all further images (also with new labels), orders of adding and cache layouts; fewer than 2^64 pixels (C39)", "why_tests_cant": "Relates two evaluations for every dataset and every further image; tests compare single datasets with stored numbers.", "anchors": ["src/valor_lite/semantic_segmentation/loader.py::Loader.add_data", "src/valor_lite/semantic_segmentation/computation.py::compute_intermediates", "src/valor_lite/semantic_segmentation/computation.py::compute_metrics"]}
{"id": "C130", "title": "One more detection moves precision and recall the way its own result says", "statement": "Add one more detection (image) to a dataset. If every ground truth of a label in it is found, the recall of the label does not go down; if it has no false alarm for the label (every counted prediction finds a ground truth, no two the same), the precision does not go down; with both, neither does F1. If no ground truth of the label is found in it, none of the three goes up.", "quantifier": "for all datasets with one label per ground truth and no repeated label per prediction, all further detections, labels, IoU and score thresholds, orders of adding, cache layouts and divisions of the ranked cache; at most 100000 labels and 2^31 annotations (C29)", "why_tests_cant": "Relates two evaluations for every dataset and every further image, through the ranking of all predictions; tests compare single datasets with stored numbers.", "anchors": ["src/valor_lite/object_detection/loader.py::Loader._add_data", "src/valor_lite/object_detection/computation.py::rank_table", "src/valor_lite/object_detection/computation.py::compute_counts", "src/valor_lite/object_detection/computation.py::compute_precision_recall_f1", "src/valor_lite/object_detection/evaluator.py::Evaluator.compute_precision_recall"]}
{"id": "C131", "title": "A dataset scores between its parts", "statement": "Evaluate a dataset as a whole and in parts, each with its own evaluator. Precision, recall and F1 of every label and the accuracy (and, for segmentation, IoU) of the whole lie between the smallest and the largest value that the parts report.", "quantifier": "for all datasets, all divisions into any number of parts, all labels, thresholds, orders of adding and cache layouts; classification: at most 100000 labels; detection: ground truths with one label, the sizes of C29, parts without the label left out; F1 with fewer than 10^9 predictions (segmentation: any number of pixels below the bound); segmentation: disjoint masks with distinct labels, fewer than 2^64 pixels, accuracy for parts with at least one label", "why_tests_cant": "Relates the evaluation of every dataset with those of all its parts; tests evaluate single datasets.", "anchors": ["src/valor_lite/classification/computation.py::compute_precision", "src/valor_lite/classification/computation.py::compute_recall", "src/valor_lite/classification/computation.py::compute_accuracy", "src/valor_lite/classification/evaluator.py::Evaluator.compute_precision_recall", "src/valor_lite/object_detection/computation.py::compute_counts", "src/valor_lite/object_detection/computation.py::compute_precision_recall_f1", "src/valor_lite/semantic_segmentation/computation.py::compute_metrics"]}
{"id": "C132", "title": "One more datum moves the ROC area the way its rank says", "statement": "After one more datum of a label is added, the ROCAUC of the label is the old one averaged with the part of the other data that score below it, each datum of the label weighing the same; for a datum of another label, with the part of the data of the label that score above it. So a datum ranked above all others of the wrong kind never lowers ROCAUC, one ranked below never raises it, and a datum of another label that does not score the label changes nothing.", "quantifier": "for all datasets with data of the label and of other labels, all new data and their place in the order of adding, all storage layouts; every datum of the label scores it", "why_tests_cant": "Relates the evaluations of every dataset with and without a datum; tests evaluate single datasets.", "anchors": ["src/valor_lite/classification/computation.py::compute_rocauc", "src/valor_lite/classification/evaluator.py::Evaluator.compute_rocauc"]}
{"id": "C133", "title": "Only the side of the threshold matters", "statement": "At a fixed threshold the distance of a score from it does not matter: two datasets with the same ground truths, predicted labels (and, for detection, IoUs) in which the same predictions reach the threshold, and for winner-take-all the same ones win, have the same counts, precision, recall, F1, accuracy and confusion matrix (detection: the same ground truths, true and false positives and false negatives at every IoU threshold). Likewise two thresholds with no score (detection: no score and no IoU) between them give the same results.", "quantifier": "for all datasets, orders of adding and storage layouts; two classifiers or detectors: all thresholds above the tolerance under which scores count as zero (1e-8, detection 1e-9); two thresholds: all of them, positive IoU thresholds; detection: no prediction repeats a label", "why_tests_cant": "Relates every pair of datasets and every pair of thresholds; tests evaluate single datasets at a few thresholds.", "anchors": ["src/valor_lite/classification/computation.py::compute_counts", "src/valor_lite/classification/computation.py::compute_confusion_matrix", "src/valor_lite/object_detection/computation.py::compute_counts"]}
{"id": "C134", "title": "The averages of a detection report agree with each other", "statement": "In a report of compute_precision_recall, mAPAveragedOverIOUs is the mean of all reported APs, of the mAPs and of the APAveragedOverIOUs alike, and mARAveragedOverScores is the mean of all reported recalls, of the ARs, of the mARs and of the ARAveragedOverScores alike: the order of averaging does not matter. Every average lies between the smallest and the largest of the APs (or recalls) that it averages.", "quantifier": "every cache with at least one label, every division of the ranked cache into tables, every non-empty list of IoU and score thresholds (repeated ones included), every order of equal precisions", "why_tests_cant": "The averages are computed by separate array operations along different axes; tests compare them with constants of one dataset.", "anchors": ["src/valor_lite/object_detection/evaluator.py::Evaluator.compute_precision_recall", "src/valor_lite/object_detection/computation.py::compute_average_recall", "src/valor_lite/object_detection/computation.py::compute_average_precision"]}
{"id": "C135", "title": "Winner-take-all matters only where several predictions reach the threshold", "statement": "With hardmax on or off the evaluator reports the same counts, precision, recall, F1, accuracy, confusion matrix and unmatched ground truths at a threshold that at most one prediction of each datum reaches; for scores that are probabilities (not negative, of sum at most 1) at every threshold above 1/2.", "quantifier": "for all datasets, thresholds, orders of adding and storage layouts", "why_tests_cant": "Relates the two modes on every dataset; tests run single datasets, and the winner is fixed when a datum is added, long before a threshold is known.", "anchors": ["src/valor_lite/classification/loader.py::Loader.add_data", "src/valor_lite/classification/computation.py::compute_counts", "src/valor_lite/classification/computation.py::compute_confusion_matrix"]}
