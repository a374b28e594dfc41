# Design: Lean model of valor_lite and what is proved about it

Subject: `Striveworks/valor`, package `valor_lite` (source read in `/repo`, never run).
All paths below are relative to `/repo/src/valor_lite`.

## 1. Approach

* Every modelled function is a small total Lean function that follows the Python
  branch by branch. Each definition cites file and lines. Exceptions are values
  (`Except`, `Option`, or an explicit outcome type). Loops are folds or structural
  recursion.
* Properties are stated against small, separate specifications (counting predicates,
  list permutations, "first row such that", ...), not against the model's helpers.
* Property theorems live in `Verif/*/Props*.lean` (or in a `Properties` section)
  apart from the helper lemmas. Beside each one an `example` shows that a concrete
  non-trivial case meets the hypotheses.
* When a property is false of the code, the negation is proved with a concrete
  witness (`..._violation`), and the strongest part found to hold is proved under
  a name ending in `_partial`.

## 2. Trusted base

* Lean 4 kernel; axioms at most `propext`, `Classical.choice`, `Quot.sound`.
  No `sorry`, no own axioms, no `native_decide`, no `bv_decide`.
* Reading of the Python source: the code is not run. The models are hand written.
* Numbers: Python/NumPy `float64` values are modelled by exact rationals (`Rat`),
  hence rounding, NaN and infinities are outside those models. C72-C74 (`Verif/Float`) model the arithmetic a
  second time with IEEE doubles (`Shared/Double`: nearest even, gradual underflow; no overflow). There the order of
  additions inside NumPy is a parameter (any order), except in witnesses, which use NumPy's pairwise order
  (`Float/Sums.npSum`). Compensated summation of Python >= 3.12 `sum` is not modelled. `int64`/`uint64`
  columns are unbounded `Int`/`Nat` except where a property is about wrap-around.
* External libraries are modelled by their documented behaviour: `np.unique`
  (sorted, distinct; `return_index` = first occurrence), `np.lexsort` and
  `Table.sort_by` (sorting by keys; stability only where noted), `np.argmax` (first maximum),
  `np.isclose` (|a-b| <= 1e-8 + 1e-5*|b|), `heapq` (pop = minimum),
  `pyarrow.dataset.to_batches` (consecutive slices of a fragment), `re`,
  parquet writing/reading (identity on rows), file system calls (atomic steps).
* Not modelled: `shapely` itself (C100 assumes that its areas are exact where it does not raise), `evaluate`/`rouge`/`bleu` libraries, the LLM
  clients, tqdm, schema typing of pyarrow, concurrency (the library has none).
* `json.loads` and `repr` (CPython) are modelled from their documentation (`TextGen/Json`, `TextGen/Repr`): lone surrogates become
  U+FFFD, numbers that are not integers are one value, the recursion limit is a number. The table of printable characters outside of
  ASCII is a parameter.

## 3. Per property: model and proof

Lean files are relative to `lean/Verif`. "Witness" means that the negation is proved (`*_violation`).

| id | what is modelled | how it is proved |
| -- | -- | -- |
| C01 | `FileCacheWriter` state: buffer, open file, closed files, all write calls (`Cache/Writer`) | invariant "files ++ open file ++ buffer = history" by induction over calls |
| C02 | `MemoryCacheWriter` state | same invariant; order is false for `write_table` after buffered batches (witness); multiset, and order when flushed first, as partial |
| C03 | both writers | invariants over every prefix of the history |
| C04 | file roll-over and names | invariant: each `write_rows` batch is a contiguous piece of one file; names strictly increase |
| C05 | `_merge` as k-way heap merge over batch iterators, `sort` (`Cache/Sort`) | heap/iterator invariant: emitted ++ remaining is a permutation and emitted is <= every remaining head; the file index breaks ties, so rows equal in the sort columns keep their order (stability is part of `C05_sort_file`) |
| C06 | `sort` with a memory sink | witness of an unsorted output; partial: content always, order for one fragment |
| C07 | `_merge` with different batchings | refinement to a batch-free merge |
| C08 | `paginate_index` (`Cache/Paginate`) | page = rows whose key has global rank in [offset, offset+limit) |
| C09 | config dictionary, falsy check in `load` (`Cache/Lifecycle`) | round trip for positive values; witness for 0 |
| C10 | directory state machine with crash points | witness: crash after mkdir; partial: every state after a crash is recoverable or one of two characterised stuck states |
| C11 | `delete` on directory states | characterisation of every intermediate state |
| C12 | loader state machine (`Classification/Loader`) | invariant over histories |
| C13 | `compute_counts` (`Classification/Counts`) | equality with a counting specification over the added data |
| C14 | same | conservation; false when the ground truth is not among the predictions (witness); exactly which datums are missing from the denominator (`C14_exact`) |
| C15 | same, evaluator loop | additivity over datum-aligned splits, permutation invariance |
| C16 | metric formulas and report entries (`Classification/Metrics`, `ReportedProps`) | arithmetic in Q, for the formulas and for each entry of a report; witnesses for accuracy > 1 and the F1 cut-off |
| C17 | evaluator accuracy | witness; exact relation |
| C18 | pair classifications, counts | witness for descending thresholds; exact effect (running maximum); for the report lists of two requests with any thresholds, C60 and C64 decide membership metric by metric (`ThresholdProps`) |
| C19 | pair classifications, matrix, examples (`Classification/Pairs`) | equality of counts and list lengths |
| C20 | `np.isclose` on ids | exact below 10^5 (partial); witness above |
| C21 | `_create_rocauc_intermediate`, `compute_rocauc` (`Classification/Roc`) | trapezoid sum over groups = Mann-Whitney statistic; a label that always scored 0 has at most one point and area 0 (`C21_zero_exact`); `Classification/RocUntiedProps`: without a tie of a positive and a negative at the highest score the division of the curve does not matter (used by C82, C110, C121, C124 and C132 through `RocRun`) |
| C22 | carry-over between batches | witness; partial when no split falls after the origin point; `Classification/RocCutProps`: such a split loses exactly the first triangle of the curve, half the tied pairs at the highest score |
| C23 | `filter` (`Classification/Filter`) | set characterisation of surviving rows |
| C24 | `compute_bbox_iou` (`Detection/Iou`) | equality with Lebesgue measures of the regions |
| C25 | `compute_bitmask_iou` | equality with counts of pixels |
| C26 | `rank_pairs` (`Detection/Rank`) | characterisation by sorted order |
| C27 | `calculate_ranking_boundaries` | scan invariant (records of the IoU sequence), quantified over thresholds |
| C28 | `compute_counts` (`Detection/Counts`) | from C27 by injection of true positives into ground truths |
| C29 | PR curve and AP | running maximum = suffix maximum; batch carry-over invariant |
| C30 | `mask_pairs_greedily` (`Detection/Pairs`) | loop invariant; the greedy choice is unique |
| C31 | `_isin` on 64-bit vectors | injectivity of packing |
| C32 | `compute_pair_classifications`, `compute_confusion_matrix` | conservation |
| C33 | `filter` (`Detection/Filter`) | set characterisation for annotations, pairs and rows; invariants of the cache kept |
| C34 | loader (`Detection/Loader`) | coverage of annotations and pairs, id invariants |
| C35 | `finalize` of the three evaluators | classification: error once a curve row is stored, else witness of a wrong ROCAUC (RetryProps.lean keeps the intermediate cache in the state); segmentation: no effect; detection: witness of duplication, exact effect |
| C36 | `_validate_bitmasks` (`Segmentation/Mask`) | exact result for all lists of masks; witness with three masks |
| C37 | `compute_intermediates` | partition of the pixels |
| C38 | loader rows <-> matrix (`Segmentation/Model`) | homomorphism in uint64 arithmetic |
| C39 | `compute_metrics` | arithmetic |
| C40 | `filter` (segmentation) | per-row preservation of the count |
| C41 | `llm_guided_metric` (`TextGen/Model`) over an arbitrary client state | induction over attempts |
| C42 | every `calculate_*` method | exact relational characterisation of each calculation, bounds from it |
| C43 | context precision | list induction |
| C44 | validators over a JSON datatype (`TextGen/Text`) | iff for acceptance; witness for unhashable verdicts |
| C45 | all guided metrics | Hoare-style propagation of "only invalid-response errors"; the conditions on the decoder are only about texts that the LLM replies, and C79_tame proves them of the real decoder; three witnesses |
| C46 | `trim_and_load_json` search | characterisation of the backtracking match on all strings |
| C47 | `find_first_signed_integer` | same; witness for more than 4300 digits |
| C48 | `OpenAIWrapper` counters | induction over histories |
| C49 | schemas, encode/decode, `Builder.persistent`, `Evaluator.load` (`Shared/Metadata`) | round trip for all field lists; witnesses for `iou_prev` and for data types |
| C50 | `extract_labels` (`Shared/Labels`) | dictionary invariant, with the loader invariants of the three tasks |
| C51 | `glob.glob(path/*.parquet)` on directory names (`Cache/GlobPath`) | partial for names without `*?[`; witnesses for others |
| C52 | examples (`Classification/ExamplesProps`), with `datums`, `limit` and `offset` (`Classification/PageProps`) | characterisation of each list; the tables of a page hold whole datums, and the index of a page is the window of the numbers of the datums kept |
| C53 | counts against confusion matrix | equality; two witnesses |
| C54 | loader, ranking, counts and matching composed (`Detection/EndToEnd`, `NearestProps`) | equalities with the data that were added; all counts as explicit functions of the annotations |
| C55 | `extract_counts`, `get_info` | equalities with the data; witnesses for datums |
| C56 | `datums=` argument against `filter`, for the three tasks | equality of every count, curve and cell; for detection also of the returned metric lists (`Detection/DatumReport`) |
| C57 | segmentation `filter` under re-batching | witness for metadata; equality otherwise |
| C58 | detection metrics under every division of the cache (`Detection/DivisionProps`, `CmDivision`, `DivisionEndToEnd`) | canonical form of the ranked rows (stable sort of the rows chosen per datum); additivity of the matrix over datums |
| C59 | detection examples and confusion matrix with examples (`Detection/Examples`, `ExEntry`, `ExampleProps`, `CmExLemmas`, `CmExampleProps`) | index of the unpacking against membership lists; one greedy choice shared by both outputs; witness for several labels |
| C60 | `compute_precision_recall` over arrays of thresholds, with unpacking (`Detection/Report`, `ReportLemmas`, `ReportProps`, `ReportMetrics`) | loop invariants for every array; the whole result equals a specification built from one threshold at a time |
| C61 | score part of the precision-recall curve (`Detection/ScoreCurve`) | maximal score per recall bin against the recall at a threshold |
| C62 | `compute_pair_classifications` and `compute_confusion_matrix` over arrays of thresholds (`Detection/CmReport`, `CmReportProps`) | loop invariants; the list of metrics equals a specification built from one pair at a time |
| C64 | metric lists of classification (`Classification/Report`, `ReportExamples`, `ReportProps`, `ReportExamplesProps`, `DatumReportProps`, `DatumExamplesProps`) | the whole result, with and without `datums=`, equals a specification in terms of the added data, by label name |
| C65 | metric lists of segmentation (`Segmentation/Report`, `ReportProps`) | the whole result, also of a filtered evaluator and with `datums=`, equals a specification in terms of pixels, by label name |
| C66 | array readers (`Cache/Reader`, `ReaderProps`) | result described exactly for an arbitrary set order and arbitrary skipping of empty fragments; violation without numeric columns |
| C67 | `sort_by`, `count_rows`, `count_tables` (`Cache/Reader`, `ReaderProps`) | invariant of the writer extended by sorts; violations for paths that are glob patterns |
| C68 | BLEU tokenizer, `calculate_sentence_bleu`, `calculate_rouge_scores` (`TextGen/Bleu`, `BleuProps`) | strong induction on the text; scoring libraries and Unicode tables are parameters |
| C69 | `compute_all` (`TextGen/Bleu`, `BleuProps`) | exactly the single computations in turn; all metrics unless the predicted context is empty, violation there |
| C70 | `_validate_messages` and both wrappers (`TextGen/Bleu`, `BleuProps`) | accepted values characterised exactly; no request otherwise |
| C71 | the ten `compute_*` methods (`TextGen/Reported`) | exact characterisation of every returned value through C42/C43 and the retry loop |
| C72 | every metric formula with rounding after each operation (`Shared/Rounding`, `Float/Sums`, `Float/Metrics`, `Float/MetricsProps`) | monotonicity of rounding and exactness on doubles; error bounds by induction over the order of summation |
| C73 | comparisons of rounded values (`Float/Decide`) | separation of fractions with small denominators against the rounding error; IoU error bound and margin for all double boxes (`Float/Margin`); witness for decimal box coordinates |
| C74 | `compute_rocauc` with rounding (`Float/Roc`, `Float/RocProps`) | summands telescope; invariant over chunks relating the rounded and the exact area; two witnesses |
| C75 | two loaders with the same detections in different orders (`Detection/Rename`, `Reorder`, `ReorderLoader`, `ReorderProps`) | the rows of one are a renaming of ids of the other's; each step of ranking and matching commutes with renaming inside a datum; matrix additive over datums; witness with equal scores |
| C76 | two classification or segmentation loaders with the same data in different orders (`Classification/OrderProps`, `Segmentation/OrderProps`) | the labels are permutations of each other, every reported value is a sum over the data |
| C77 | recall bins and curve with rounding (`Float/Curve`) | recalls on a level: finite check of the 101 levels; all others are farther from a level than the rounding error; a lost level is bounded by the next one, so the loss telescopes |
| C78 | prompt templates verbatim and Python `repr` of lists (`TextGen/Prompt`, `TextGen/Repr`) | first characters tell the kinds apart; `repr` of a list is injective and has no line break, so separators can be found again; two witnesses |
| C79 | `json.loads` by recursive descent with a depth limit (`TextGen/Json`) | soundness and completeness against a grammar given as inductive relations; every error is one of three kinds |
| C80 | the examples inside the templates (`TextGen/ExampleProps`) | the example is evaluated by the kernel for one depth, lifted to all depths and to all prose around it; metric-level consequence for context relevance |
| C81 | nothing new modelled (`Classification/MonotoneProps`, `Detection/MonotoneProps`) | from the exact counts of C13 and C28, the cache form of average precision (C29) and the confusion matrix model (C31): the sets counted shrink or grow; ratios by monotonicity of the quotient |
| C82 | nothing new modelled (`Detection/PerfectProps`, `Classification/PerfectProps`, `Segmentation/PerfectProps`) | each prediction has one best ground truth of its label, its own, so greedy matching takes it (C28, C29, C60); the boxes' IoU is 1 only with themselves (C24, C25); exact counts of C13 and pixel counts of C39 with C64/C65 for the reports; two witnesses. `Classification/PerfectRocProps`: a perfect ranking has no tie at the top, so the area is 1 for every division of the curve |
| C83 | nothing new modelled (`Cache/SizeProps`) | each step of the writer changes the files in one of four ways; a file is closed as soon as it reaches `rows_per_file` and open files are smaller, so a file exceeds it by at most one flush |
| C84 | nothing new modelled (`Classification/ShardProps`, `Detection/ShardProps`, `Segmentation/ShardProps`) | the counts are those of the specification, which are sums over datums and do not mention label ids; for detection each image is compared with a loader that holds it alone, by a renaming of ids (`Renames`) that preserves ranks and matches; labels a shard does not know count 0 |
| C85 | nothing new modelled (`Classification/RescaleProps`, `Detection/RescaleProps`, `Segmentation/RescaleProps`) | the label lists are renamed and ids stay: by induction over the steps of the loader (detection), by the specifications of C13, C64 and C65 (the others) |
| C86 | as C85 | sorting, choosing the best pair, the greedy matching and the curve commute with an order preserving map of the score column; −1 stays for rows without prediction |
| C87 | as C85 | counting pixels through a map that hits every pixel `n` times multiplies all counts by `n` |
| C88 | `persistent` step by step (`Shared/Interrupted`, `InterruptedProps`), `load` of partly finalized caches (`*/Interrupted`) | invariant over the steps: only the last state has a complete metadata file; violations for interrupted `finalize` and leftover metadata |
| C89 | explicit counts per label (`Detection/NearestProps`, `LabelProps`) | the pair kept for a label of a prediction is its first nearest ground truth (stability of the sorts); counts as functions of scores and IoUs of the label; violation for several labels |
| C90 | the explicit counts under added predictions (`Detection/AddedProps`) | monotone in the set of predictions; exact change for one more prediction |
| C91 | the explicit counts under permutations of the annotations (`Detection/AddedProps`) | bijections; violation for equal overlaps |
| C92 | nothing new modelled (`Detection/OperatingPoints`, `CurveProps`) | a score threshold cuts a prefix off the ranked predictions; with different scores every prefix that ends in a hit is one; violation for equal scores |
| C93 | nothing new modelled (`Detection/GeometryProps`) | algebra on intersection and union areas; masks by counting, integer boxes by counting pixels; datasets by equality of what the loader receives; violations for tiny boxes and for decimal coordinates in doubles |
| C94 | nothing new modelled (`Detection/ComposeProps`, `Classification/ComposeProps`, `Segmentation/ComposeProps`) | for one-sided conditions the masks of `filter` work row by row and such steps compose; loader lemma that the texts of an annotation are the same in all its rows; violations for conditions that mix the sides |
| C95 | `type`, `parameters`, `value` and `to_dict` of detection metrics (`Detection/MetricDict`); `Classification/MetricKeyProps`, `Segmentation/MetricKeyProps` | closed form of the reports (C60, C64, C65): values depend on label and thresholds only; the list of keys equals the list of requested combinations; violation for confusion matrices with thresholds 0, 1/2, 0 |
| C96 | conversion of ids to `float64` and back (`Detection/FloatIdProps`) | integers up to 2^53 are doubles; bounds of the ids from the loader invariant; sharpness at 2^53 + 1 |
| C97 | `get_info` of the three evaluators with conditions, and of the evaluator that `filter` returns (`Detection/PreviewProps`, `Segmentation/PreviewProps`, `Classification/PreviewProps`) | membership of the filtered rows (C23, C94 lemmas), counts as numbers of distinct ids or sums over all rows, for every layout; witnesses for the fields that differ |
| C98 | `Evaluator.openai`, `Evaluator.mistral` and the wrappers' constructors are added; requests are counted by any counter on the LLM's state that each call raises by one | `TextGen/CostProps.lean`: `AtMost c k` (whatever happens) and `Exactly c k` (if no exception) compose along the `do` blocks; induction over the ground truths and over the attempts. `C98_names` by cases on the retry loop |
| C99 | `Loader.offer` of the three loaders: one iteration of `add_data` whose write may be refused after the labels (detection: and the counters) were changed; a caller who ignores the exceptions (`Classification/RefusedProps`, `Segmentation/RefusedProps`, `Detection/RefusedProps`) | the evaluator after the offers is compared with one built from the accepted datums: same rows up to a renaming of datum, annotation and label ids; the report is invariant under the renaming (`Detection/RenamedReport`). Labels left behind: `C99_gap`, `C99_detection_gap` show that every request raises |
| C100 | `Detection/AddData.lean`: the three `add_*` methods from the annotations with shapes: the flat list of pairs, `compute_bbox_iou`, `compute_polygon_iou` (shapely as an argument), `compute_bitmask_iou` with the shape check of `np.array`, `reshape`, `_add_data` | `Detection/AddDataProps.lean`: entry `p * G + g` of the flat list is the pair (g, p); the rest from C34 (rows), C24, C25 and measure theory |
| C101 | `Shared/Columns.lean`: the metadata columns of a row, later dictionaries override earlier ones (`row \| metadata`); conditions on one field of them | `*/ColumnProps.lean`: every row of an annotation shows the value of the annotation itself if no other dictionary of the row has the field; then C33, C39, C65. Witnesses by evaluation where one has |
| C102 | `Segmentation/Construct.lean`: programs of constructions and `add_data` calls over one heap of arrays; the loader reads the arrays when it is called | `Segmentation/ConstructProps.lean`: the constructor reads and writes its own arrays only (frame lemma), clean arrays not at all; invariant over the program; then C38 |
| C103 | `Cache/Handle.lean`: a reader as a table or a path, used while the writer goes on; `Segmentation/Held.lean`: loader and evaluator over one writer | `Cache/HandleProps.lean`, `Segmentation/Held.lean`, `Detection/Held.lean`: writer invariant, closed files are a prefix of later closed files; witnesses for files |
| C104 | loader, matrix and report of segmentation as in C38, C65 | `Segmentation/ExchangeProps.lean`: pixel counts of the exchanged images, then C65 for both evaluators |
| C105 | nothing new modelled (`Detection/CopiesProps`, `Classification/CopiesProps`) | partial. Detection: by C84 the counts at every score threshold are n times those of the dataset; with different scores every prefix of the ranked predictions lies between two thresholds that differ by n copies of one prediction, and its precision and recall are bounded by those of one of the two (`curve_copied`); the scores of the curve are determined by recall (C61). Classification: the ROC area is the Mann-Whitney statistic (C21), which does not change when both sides are repeated. Equal scores: `C105_ap_violation` |
| C106 | nothing new modelled (`Detection/NewHitProps`) | from C54 the ground truths found with the prediction are those found without it and one more, and the prediction is counted; every operating point is at least as good as before, so C92 gives the curve |
| C107 | nothing new modelled (`Detection/ReloadProps`); `HasLabel` says which labels are left in the filtered tables | partial; the labels read from the filtered tables are those left, with the ids of the source; if they are consecutive both reports follow from C60, label by label; labels without rows have average precision 0, which relates the means; with gaps every request raises (`C107_detection_gap`). Classification (`Classification/ReloadProps`): the counts of a label do not depend on the number of labels, so the reports agree on the labels that are left, accuracies included. Segmentation (`Segmentation/ReloadProps`): the matrix of the labels that are left is a corner of the matrix of all labels, which is zero elsewhere, so all metrics but the mean IoU agree |
| C108 | nothing new modelled (`OneSidedProps` of the three tasks); `NeverTrue`, `NeverPredicted` speak about the data that was added | detection: membership of the report (C60) reduces to true positives, curve and false negatives of the label; bound C28, interpolation C29. Classification: counts of the definition (C64) are empty; the area is zero for every division of the curve, since either no table is used or all true positive rates are zero. Segmentation: pixel counts (C65) |
| C109 | nothing new modelled (`Classification/RocRangeProps`) | the points of a label rise from the origin to (negatives, positives) (`emit_rising`, from the form of the curve in C22); by induction over the tables of the curve the running area is between 0 and the false positive rate of the carried point (`fold_range`), also for cuts after the origin row; the counts come from C21. Two witnesses above 1. `Classification/RocUnscoredProps`: the exact value when datums leave their ground truth unscored (won pairs over `gt * (scored - gt)`, without wrap-around) |
| C110 | nothing new modelled (`SharperProps` of detection and classification) | detection: the exact counts of C54 change in the one rescored prediction only; the curve follows from all operating points (C92). Classification: a prediction of the ground truth label that was made (C13) is still made, also as winner; a false negative was one before. Areas: the statistic of C21 is monotone in each pair |
| C111 | segmentation reports of two datasets, the second with the prediction of the first or the true label at every pixel | C65_report gives the metrics as quotients of pixel counts; true positives grow, wrong predictions shrink; labels that disappear had IoU 0 |
| C112 | segmentation reports of two datasets, the second with the labels renamed by any function | pixel counts of a coarse label are the sums over its parts, true positives at least the sum; a quotient of sums is at least the least quotient |
| C113 | two evaluations whose detections have the same annotations and other IoUs (`TighterProps`) | a ground truth found before (C54) is found by the same prediction; the counted predictions are the same; the curve follows from all operating points (C92) |
| C114 | worlds whose reply is a function of the message (`SteadyProps`) | runs whose result does not depend on the state are closed under sequencing; the loops over ground truths become lists of single scores, whose maximum does not see order and repetition. Context precision: the verdict rows (C43) of the same ground truths are the same set |
| C115 | the confusion matrix of a whole evaluation against a matching given by its properties (`MatrixProps`) | a pair of maximal rank in which two greedy matchings differ cannot exist; the rows of the loader come in the order of the listing and the stable sort keeps it; counts from the cells with examples (C59) |
| C116 | two evaluations with exchanged annotations (`MatrixProps`) | competing pairs share an annotation, so the order of the listing is the same read from either side; uniqueness of the matching (C115) |
| C117 | two evaluations, one without the low scores (`WithoutProps`) | the matching of the kept predictions is the part of the matching of all (C115): who displaces a kept prediction has at least its score; counts from C54 |
| C118 | sums over the labels of a report (`Classification/MicroProps`) | exact counts (C13); sums over labels and datums exchanged, one term per datum |
| C119 | two runs with different numbers of retries (`RetriesProps`) | each metric is a computation of a score that does not know the number of retries, inside the retry loop; induction over the attempts; steady LLM from C114 |
| C120 | average precision against recall in one report: `C120_report` bounds AP below by precision times recall levels of any score threshold and above by the recall levels reached, AP averaged over IoUs by AR, mAP by mAR | proved from the add calls; `curve_ends`, `sum_limit`, `sum_least` |
| C121 | areas of two labels or two datasets (`Classification/MirrorProps`) | both areas are the Mann-Whitney statistic (C21); pairs counted from the other side; witness where a label scores 0 everywhere |
| C122 | nothing new modelled (`Detection/OnlyRows`, `OnlyProps`, `OnlyCurve`, `OnlyOrder`, `OnlyMatrix`); `Selects`, `Picks` say what the selected dataset is, `Asks.dataset` builds it | every row of the second evaluator corresponds to a row of the filtered one and back, up to leftover one-sided rows of annotations that have other rows; best pair, ranking and counts are decided by the remaining rows; ids and label numbers are renamed in order; the curve follows from the ranked rows of a label, the matrix from the sequence of pairs in order of score, IoU, datum, ground truth and prediction, which is all that greedy matching sees |
| C123 | nothing new modelled (`Classification/OnlyProps`, `OnlyRoc`); `Pick` is what the user asks for, `Pick.only` the selected classifications with their selected predictions | the surviving rows of a datum are the rows of the trimmed classification up to the winner flag, which counting does not read without hardmax; if the top prediction survives, the list is split at it on both sides and the flags agree; blocks of rows with gaps in their numbers count like the blocks of a fresh evaluator; the ROC area is computed from columns without the flag, and C21's argument only needs the rows of the label and the two counts |
| C124 | nothing new modelled (`Segmentation/OnlyProps`, `Detection/OnlyReport`, `Classification/OnlyMean`) | labels without data contribute zero to the sum over labels, the others are unchanged, so the sums agree and only the divisor differs; witnesses with a label that lost its data |
| C125 | nothing new modelled (`Detection/BlankProps`, `Segmentation/BlankProps`) | detection: a blank image writes no row and no label, so the rows of both loads differ by an order preserving renaming of datum numbers, under which counts, curves and matching are invariant; segmentation: blank images add to no cell of the pixel table but background/background |
| C126 | nothing new modelled (`Segmentation/WeightedProps`) | the pixels with equal ground truth and prediction are split by label (`right_split`); each ratio times its denominator is its numerator; bounds of weighted sums by induction over the labels |
| C127 | nothing new modelled (`Classification/CoarserProps`) | the counts of one datum as indicators of its top prediction; summed over the parts of a coarse label and over the datums; a quotient of sums is not below the least quotient |
| C128 | nothing new modelled (`Classification/OneMoreProps`) | counts of the datum as in C127 (with and without hardmax), added to those of the dataset; monotonicity of quotients and of F1 |
| C129 | nothing new modelled (`Segmentation/OneMoreProps`) | pixel counts of the image added to those of C65; monotonicity of quotients; the labels of the larger dataset are the old ones and new ones |
| C130 | nothing new modelled (`Detection/OneMoreProps`) | the counts of `C54_exact` are sums over detections, so the new one adds its hits, counted predictions and ground truths; an injection from counted predictions to found ground truths; monotonicity of quotients and F1 |
| C131 | nothing new modelled (`Classification/BetweenProps`, `Detection/BetweenProps`, `Segmentation/BetweenProps`) | the counts of the parts add up (C84); a quotient of sums lies between the quotients, parts with an empty denominator weigh nothing |
| C132 | nothing new modelled (`Classification/OneMoreRocProps`) | partial: the Mann-Whitney statistic (C21) with one more term on either side; false for a label that always scored 0 (`C132_violation`) |
| C133 | nothing new modelled (`ThresholdOnlyProps` of classification and detection) | the exact counts (C13, C19; detection C54) look at a score only through `t ≤ score`, the zero tolerance and the winner |
| C134 | nothing new modelled (`Detection/AverageProps`) | the values read off the report (C60) are double and triple means of the same table; sums may be exchanged and all rows have the same length |
| C135 | nothing new modelled (`Classification/ThresholdOnlyProps`) | the only prediction that reaches the threshold is the winner, so the specifications of C13 and C19 agree for both modes; two probabilities above 1/2 exceed the sum |
| C63 | counts against confusion matrix of detection (`Detection/Agree`) | equality for isolated annotations; one witness for each direction |

## 4. Findings (places where the code does not do what the property says)

Cache

* C02: `MemoryCacheWriter.write_table` appends directly while earlier rows are still in the buffer,
  so the in-memory order differs from the write order (the on-disk writer flushes first).
* C05: `_merge` stops reading a fragment at its first empty batch. pyarrow does not emit empty
  batches for unfiltered fragments, so this stays a hypothesis (`IsBatching`);
  `C05_empty_batch_loses_rows` shows the effect.
* C06: `sort` into a memory sink with a source of several fragments only sorts fragment by fragment.
* C08: `limit=0` means "no limit" (`C08_limit_zero`).
* C09: `batch_size=0` or `rows_per_file=0` is accepted by `create` and refused by `load` (falsy check).
* C10: a crash between `mkdir` and the end of writing `.cfg`, or between unlinking `.cfg` and
  `rmdir`, leaves a directory that neither `create(delete_if_exists=True)` nor `load` accepts.
* C66: `iterate_tables_with_arrays` without `numeric_columns` (documented as optional) loops over `tbl.columns`, which are
  arrays, not names, and raises `TypeError`; with neither argument it selects no column at all (`C66_numeric_required`).
* C67: with a directory name like `run[1]` `sort_by` silently sorts nothing (`C67_sort_violation`), and it rewrites files of
  other caches that the name matches as a pattern.
* C51: the cache path is used as a glob pattern. For a path such as `run[1]` no dataset file is ever
  found: every new file is `000000.parquet` and replaces the previous one, and deleting `exp[12]`
  unlinks the parquet files of `exp1` and `exp2`.
* C103: an evaluator over a file cache is not a snapshot. When its loader is used further it raises while a file is being
  written (`C103_files_violation`), and afterwards mixes the new rows with the labels and, in detection, the ranking of
  the old ones (`C103_segmentation_violation`, `C103_detection_violation`). In memory it is a snapshot.

Classification

* C118: a datum that does not score its ground truth and whose winner is below the threshold is missing from the recall of its label: recall 1
  with accuracy 1/2 (`C118_violation`).
* C35: the guard of `finalize` looks only at the ROC curve cache, but the intermediate cache is filled before. If a call raises after
  the sort (for example an `IndexError` from an `index_to_label_override` with an id that is not below its length), or writes no curve
  row (empty override), the next call is accepted and appends the same rows to the intermediate cache again: ROCAUC is 3 for a perfect
  classifier (`C35_classification_violation`). The curve rows of the failed call stay too and precede those of the later one
  (`C35_classification_leftovers`).
* C107: as for detection, `Evaluator.load` on a filtered cache without `index_to_label_override` raises for every request if the filter
  removed a label with a lower id than one that is left (`C107_classification_violation`); else metrics of removed labels are missing
  (`C107_classification_missing_violation`).
* C99: a classification that the cache refuses leaves its labels in the loader. If such a label is in no accepted classification, the next
  accepted one that predicts a new label makes `finalize` raise an `IndexError` (`C99_gap`), because label ids are used as positions in
  arrays of length `len(index_to_label)`.
* C95: with thresholds that are not sorted the list of confusion matrices can have two entries with the same type and parameters and different
  values (`C95_matrix_violation`, thresholds 0, 1/2, 0), a consequence of C18.
* C18: the score mask of `compute_pair_classifications` is updated in place from threshold to threshold,
  so the matrix at the k-th threshold is that of the largest of the first k (witness: `[0.5, 0]`).
* C53: counts ignore scores with `|s| <= 1e-8`, the confusion matrix those with `s <= 1e-9`; a label
  listed twice counts twice in TP/FP and once in the matrix.
* C13/C20: label ids are compared with `np.isclose`, exact only for ids below 100000. C13 is stated for
  at most 100000 labels.
* C14: with `hardmax=True`, a datum whose ground truth is not among its own predictions and whose
  winner stays below the threshold is neither a TP nor an FN, so the recall denominator is too small.
* C16: with `hardmax=False`, a datum that lists its ground-truth label twice contributes two TPs; accuracy
  can exceed 1. F1 is forced to 0 when precision + recall <= 1e-9 although both are positive.
* C81: with `hardmax=False` a datum is a false negative of its own label as long as any other label is predicted too, even
  if its own label is predicted. Raising the score threshold from 0.5 to 0.7 can raise the recall from 1/2 to 1
  (`C81_recall_violation`); with `hardmax=True` this needs a datum whose ground truth is not predicted (`C81_winner_violation`).
* C82: a label that is no datum's ground truth has precision, recall and F1 0 even when nothing was predicted wrongly.
* C17: `compute_precision_recall(datums=...)` divides by the number of all datums.
* C21: a label whose highest score is zero loses the first segment of its curve, so ties at zero count 0
  instead of one half (`C21_zero_violation`). Positives that do not mention the label are outside C21's
  hypothesis; then `pd_count - gt_count` may even wrap around.
* C22: `compute_rocauc` drops the carried point when it is (0, 0). With file caches, a fragment boundary
  right after the first ROC row of a label loses the first segment (`C22_cut_violation`).
* C23: `groundtruths`/`predictions` expressions are resolved through (datum, id) pairs, so an expression
  that mixes columns of both sides keeps more rows than satisfy it (`C23_filter_general` is exact).
* C109: the number of negatives of a label is `pd_count - gt_count`, so every datum whose ground truth label is missing from its
  own prediction hides one negative. Three positives, one of them unscored, above two negatives give a false positive rate of 2 and a
  ROCAUC of 4/3 (`C109_unscored_violation`); with more unscored ground truths the subtraction wraps around. `filter(predictions=...)`
  produces such data from complete data (`C109_filter_violation`: from 2/3 to 4/3). A label named twice in a prediction gives 2 (`C109_twice_violation`).
* C74: in double precision the area can exceed 1 (one positive above 20 negatives in groups of 3, 2, 1, 1, 1, 1, 11
  gives 1 + 2^-52, `C74_above_violation`), and a perfect ranking can be reported below 1 (`C74_perfect_violation`).
* The sorts inside `finalize` are arguments of the model with the result characterised in C05 as
  hypothesis (a permutation, descending in the score).
* C121: a two-class classifier that always gives one class score 1 and the other score 0 gets ROC AUC 1/2 for the first and 0 for the second, although the two describe the same ranking.
* C132: the same 0 for a label that always scored 0 makes one more datum that scores the label move its ROC AUC from 0 to 3/4 instead of 1/2.
* C123: the winner flag of `hardmax` is computed when a datum is added and copied by `filter`: if the top prediction of a datum is filtered out
  (by its label, say), no remaining prediction wins, and the datum counts a false negative where an evaluator of the remaining predictions
  counts a true positive. Also, a label predicted twice for a datum is kept as a whole if one of the two predictions meets the condition.
  A datum that loses all its predictions disappears, and with it its ground truth from recall and accuracy.
* C124: a label that lost all its datums by `filter` stays in the divisor of the mean ROC area: 2/3 instead of 1
  (`C124_classification_violation`).
* C127: a datum that lists a label twice (after mapping fine labels to coarse ones) and is classified correctly is counted
  as true positive by its winning entry and as false negative by the other one, so a perfect classifier gets
  recall 1/2 (`C127_violation`); for the same reason such a datum can lower a recall (`C128_violation`).

Detection

* C113: a box that grows so that it overlaps another object more than its own is matched with that one only, also if another prediction has it:
  a true positive is lost although no overlap got smaller (`C113_violation`).
* C99: the same for detection: with a label of refused detections below the id of an accepted one every `compute_precision_recall` raises
  (`C99_detection_gap`, witness `C99_detection_violation`).
* C24: the box is not validated: `xmin > xmax` gives a negative area.
* C26: when one label of a prediction with several labels matches, its other labels are dropped from the
  ranked cache and are not counted as false positives (`C26_violation`).
* C27: with an IoU threshold <= 0 no prediction is ever a true positive, because `iou_prev` of a first match is 0.
* C77: only the recalls 0.29, 0.57 and 0.58 are put one bin too low (for up to 2^44 ground truths). 29 objects found out of 50, with
  no other prediction, report average precision 58/101 instead of 59/101.
* C29: the recall bin is computed in double precision: 29 of 100 ground truths fall into bin 28
  (`C29_double_violation`, IEEE doubles modelled in `Shared/Double`).
* C73: boxes [0, 0.3] and [0.1, 0.4] overlap by exactly one half, the computed IoU is 0.4999999999999998, so the pair is
  not matched at threshold 0.5 (`C73_decimal_violation`). With integer coordinates this does not happen (`C73_box`).
* C82: two ground truths of one label with the same box (or bitmask), both predicted: `rank_pairs` keeps one ground truth per
  prediction, the first of equal IoU, so both predictions compete for the same one. One ground truth is missed and one
  prediction is a false positive although the predictions are the ground truths (`C82_twins_violation`).
* C89: a label of a prediction disappears from the ranked cache when another label of the same prediction overlaps a ground
  truth of that other label; so removing the ground truths of one label changes the false positives of another
  (`C89_violation`). Equal scores are ranked by the IoU with any ground truth, also of another label: removing a ground truth
  dog raises the average precision of cat from 1/2 to 1 (`C89_ap_violation`).
* C93: boxes whose union is below 1e-9 have IoU 0, even with themselves: normalised coordinates with sides of 0.00003
  (`C93_scale_violation`).
* C122: filtering is by annotation and label, not by entry: if a prediction lists a label twice with different scores, a score condition that holds
  for one entry keeps both (`C122_doubled_violation`).
* C94: `groundtruths=field("pd_score") > 0.5` asks for ground truths with a confident prediction. Applied after a filter on predictions it
  gives another result than together with it (`C94_detection_violation`).
* C92: with equal scores the curve can lie above every reported (recall, precision) point (`C92_violation`).
* C115: if two predictions have the same score and the same overlap with a ground truth, the one listed first is matched, also if only the other has the
  right label (`C115_violation`).
* C91: among ground truths of equal IoU the first one listed is taken. If another prediction overlaps only that one, one
  ground truth is missed; listing the ground truths in the other order finds both (`C91_violation`).
* C117: erasing overlaps below the IoU threshold changes the confusion matrix at that threshold (`C117_overlap_violation`).
* C30/C32: greedy matching for the confusion matrix looks neither at thresholds nor at labels: a prediction
  that overlaps a ground truth slightly and has the highest score blocks a better one. Diagonal and true
  positive counts differ. With several labels per prediction a ground truth is counted once for each
  (`C32_multilabel_violation`).
* C31: ids outside 32 bits are confounded by packing; -1 is handled correctly.
* C59: for a prediction with several labels the same pair can be a true positive, a false negative and a false
  positive of one example (`C59_multi_label_violation`). A datum without annotations has no example.
* C60: for an empty cache mean average precision is 0 but mean average recall is NaN
  (`C60_no_labels_violation`); F1 is forced to 0 when precision + recall <= 1e-9 (`C60_f1_violation`).
* C61: the score at recall level 0 is the highest of all predictions, also of wrong ones (`C61_level_zero`).
* C56: `compute_precision_recall(datums=...)` of classification differs from filtering first only in the accuracy
  (`C56_classification_partial`, `C56_classification_violation`).
* C65: an evaluator loaded from a filtered segmentation cache without the label override can raise `KeyError` in
  `compute_precision_recall_iou` (`C65_reload_violation`).
* C63: true positives and the diagonal of the confusion matrix differ in both directions (`C63_blocked_violation`: 1 and 0,
  `C63_shared_violation`: 1 and 2).
* C75: predictions with equal score and IoU are ranked in the order in which their images were added, so average
  precision depends on that order: 1 or 1/2 for the same two images (`C75_ap_violation`).
* C33: `filter` clears numeric columns only. Uids, label texts and metadata of a removed side stay.
* C34: ground truths are not checked for a single label. A datum without any annotation leaves no row, so it is
  not counted by `get_info` (`C55_datums_detection_violation`).
* C35: `finalize` has no guard; a second call appends all ranked rows again (`C35_detection_violation`).
* C88: the ranked cache exists from the start, so a directory on which `finalize` never ran, or stopped, is loaded without an
  error and reports too few true positives (`C88_detection_violation`). Classification does the same for ROCAUC
  (`C88_classification_violation`). Deleting the two caches leaves `metadata.json`; a new creation that stops before
  rewriting it is loaded with the old metadata fields (`C88_leftover_violation`).
* C49: a metadata field named `iou_prev` is rejected after the detailed cache was created; the path is blocked
  for every later call (`C49_reserved_violation`, `C49_retry_violation`).
* `FileCacheWriter.sort_by` rewrites its files with the default compression.
* C97: `get_info` with conditions counts all images that satisfy the condition on datums; `filter` drops images without
  annotations left (`C97_datums_violation`). In all three tasks `number_of_rows` ignores the conditions (`C97_rows_violation`,
  `C97_segmentation_rows_violation`, `C97_classification_rows_violation`).
* C101: the row of a pair holds the metadata of datum, ground truth and prediction in the same columns, the prediction last. A
  condition on ground truths sees the value of the overlapping prediction, one on predictions without the field sees that of
  the ground truth, one on datums sees that of the annotations (`C101_groundtruths_violation`, `C101_predictions_violation`,
  `C101_datums_violation`).
* C54: the constructor accepts a ground truth with several labels (if it has as many scores); it counts under its second label
  only where a prediction overlaps it (`C54_labels_violation`).
* C105: average precision depends on the number of copies of a dataset when predictions have equal scores and IoUs
  (`C105_ap_violation`): tied hits and misses of different images alternate in the ranking.
* C107: `Evaluator.load` on a filtered cache without `index_to_label_override` reads the labels from the rows that are left. If
  the filter removed a label with a lower id than one that is left, every request for metrics raises (`C107_detection_violation`);
  else the metrics of the removed labels are missing and means are taken over fewer labels (`C107_detection_missing_violation`).
* C124: `filter` passes the labels of the original on, so a label that lost all its annotations stays in the report with zeros and in the
  divisor of mAP and mAR: mAP 1/2 instead of 1 (`C124_detection_violation`).

Segmentation

* C99: labels of refused segmentations appear in the rows of the next accepted one and are reported with precision, recall, F1 and IoU 0; the
  mean IoU is divided by the number of all labels (`C99_segmentation`, witness `C99_segmentation_violation`: 1/2 instead of 1).
* C36: overlaps between the first and the third mask survive (`C36_violation`); masks are edited in place, so a
  mask that is shared between annotations changes (`C36_shared_violation`).
* C37: two masks with the same label on one side overwrite each other's counts; overlapping predictions make
  the background count wrap around to 2^64-1.
* C38: the row of an unmatched prediction merges the metadata of the ground truth with the same label
  (`loader.py` 169). Every known label gets unmatched rows, also with count zero.
* C39: mean IoU of zero labels is NaN.
* C82: a label with empty masks only has IoU 0 and lowers the mean IoU of an exact prediction (`C82_empty_mask_violation`).
* C40/C57: `filter` keeps all rows and only sets ids to -1; label texts stay; a filter on metadata depends on how
  rows are batched.
* C55: an image cut by a batch boundary is counted twice as a datum.
* C50: a filtered cache loaded without override has gaps in the numbering of labels, which are array indices.
* C107: loaded without override, a filtered evaluation reports fewer labels and another mean IoU
  (`C107_segmentation_missing_violation`), or raises a KeyError (`C107_segmentation_gap`, `C65_reload_violation`).
* C97: `get_info` counts the pixels of the rows that satisfy a condition, `filter` keeps a label in the whole image as soon
  as one of its rows does; for conditions that look at the other side the numbers differ (`C97_segmentation_violation`).
* C101: the same merge of metadata (`C101_segmentation_violation`); masks of one label share the metadata of the last mask
  that has any (`C101_repeated_violation`).
* C102: a segmentation whose masks overlap clears pixels of arrays that other segmentations use; these lose the pixels if
  they are added later (`C102_violation`).
* C124: the same for the mean IoU: 1/2 instead of 1 (`C124_segmentation_violation`).
* C129: a mask without pixels gives its label IoU 0, so an image in which every pixel is right can lower the mean IoU
  (1 becomes 1/2, `C129_violation`).

Text generation

* C114: a further ground truth can lower context precision: a context that becomes relevant behind an irrelevant one pulls the mean of the
  precisions down (`C114_precision_violation`, from 1 to 5/6).
* C45: context recall with an empty list of ground truth context statements divides by zero; a verdict that is a
  list or dictionary raises `TypeError` in the set membership test; an integer of more than 4300 digits raises
  `ValueError` in `int`. None of them is caught by the retry wrapper.
* C41: negative `retries` make the wrapper return `None`.
* Hallucination with an empty list of contexts raises `ValueError` (and ends `compute_all`).
* Answer relevance asks the LLM for verdicts even if there are no statements.
* `if not response.context` is only true for `None`; an empty `Context` is truthy.
* C44: the `analysis` entry may be any JSON value.
* C48: tokens are counted before the finish reason is checked.
* C80: the example JSON in the prompts for bias (271-343), context relevance (488-546) and faithfulness (549-623) has a comma after
  the last verdict, which `json.loads` rejects. In the prompts for context precision (346-416) and context recall (419-485) the
  second and later verdicts have the key `reason`, which `validate_verdicts` rejects. An LLM that follows the example to the letter
  gets an `Error` metric after all retries (`C80_error_violation`).
* C78: in the prompts for context precision and summary coherence the end of the first free text cannot be told from the separator
  after it; two different requests can give the same prompt if a text has a line break.
* C79: Python accepts `NaN`, `Infinity` and equal keys (the last wins).
* C68: the third alternative of the BLEU tokenizer takes a whole run up to the next white space or period, so punctuation
  in front of a word sticks to it: `(word` is one token, `word)` are two (`C68_punctuation`); `3.14` is `3`, `14`.
* C69: a response with an empty predicted context makes `compute_all` raise after seven metrics were computed
  (`C69_violation`).
* `\d` and `int` accept Unicode digits (the digit table is a parameter of the model).

## 5. Simplifications that apply to several models

* Rows carry the columns that the modelled functions read. Metadata columns are opaque values.
* The result of `sort_by` inside `finalize` and of the external merge sort is an argument of the model of
  `finalize`, constrained by what C05/C07 prove about the sort.
* `loads` (`json.loads`, in C41-C48; in C79 and C80 it is the modelled decoder), the LLM client and the table of Unicode digits are parameters of the text generation
  model; theorems hold for all of them unless a hypothesis says otherwise.
* The scores of ROUGE and BLEU come from external libraries, which are parameters of the model (any function that may
  raise); the tokenizer of BLEU is modelled. In C41-C48 a prompt is its kind and arguments; C78 and C80 have
  the wording.
* Seeded bugs: see `seeded/LOG.jsonl`. Each line is an edit of a model definition in a scratch copy with the
  theorems that failed.
