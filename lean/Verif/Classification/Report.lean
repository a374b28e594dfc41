import Verif.Classification.Metrics
import Verif.Classification.Pairs
import Verif.Classification.Roc
import Verif.Shared.Dict

/-!
# The metric lists of classification (`classification/utilities.py` 10-118, `classification/metric.py`,
`classification/evaluator.py` 524-695)

The arrays of the evaluator are turned into lists of metrics, one for each label and threshold, with the label as text.
`index_to_label` is a list of items with natural keys (`Verif.Shared.numbered`). `none`: an index outside an array.
-/

namespace Verif.Classification

open Verif.Shared (dictPut)

/-- The values of the metrics modelled here. -/
inductive MetricValue where
  | number (value : Rat)
  | counts (tp fp fn tn : Nat)
  | matrix (confusionMatrix : List (String × List (String × Nat))) (unmatchedGroundTruths : List (String × Nat))
deriving DecidableEq, Repr

/-- `Metric` (`metric.py` 22-51). The parameters are the entries of the dictionary; the type checks of `__post_init__` hold
for every value of this type. -/
structure Metric where
  type : String
  value : MetricValue
  threshold : Option Rat
  hardmax : Option Bool
  label : Option String
deriving DecidableEq, Repr

/-- `Metric.precision` (`metric.py` 53-91). -/
def Metric.precision (value t : Rat) (hm : Bool) (label : String) : Metric := ⟨"Precision", .number value, some t, some hm, some label⟩

/-- `Metric.recall` (`metric.py` 93-131). -/
def Metric.recall (value t : Rat) (hm : Bool) (label : String) : Metric := ⟨"Recall", .number value, some t, some hm, some label⟩

/-- `Metric.f1_score` (`metric.py` 133-167). -/
def Metric.f1Score (value t : Rat) (hm : Bool) (label : String) : Metric := ⟨"F1", .number value, some t, some hm, some label⟩

/-- `Metric.accuracy` (`metric.py` 169-201). -/
def Metric.accuracy (value t : Rat) (hm : Bool) : Metric := ⟨"Accuracy", .number value, some t, some hm, none⟩

/-- `Metric.roc_auc` (`metric.py` 203-233). -/
def Metric.rocAuc (value : Rat) (label : String) : Metric := ⟨"ROCAUC", .number value, none, none, some label⟩

/-- `Metric.mean_roc_auc` (`metric.py` 235-252). -/
def Metric.meanRocAuc (value : Rat) : Metric := ⟨"mROCAUC", .number value, none, none, none⟩

/-- `Metric.counts` (`metric.py` 254-305). -/
def Metric.counts (tp fp fn tn : Nat) (t : Rat) (hm : Bool) (label : String) : Metric :=
  ⟨"Counts", .counts tp fp fn tn, some t, some hm, some label⟩

/-- `Metric.confusion_matrix` (`metric.py` 307-363). -/
def Metric.confusionMatrix (cm : List (String × List (String × Nat))) (ugt : List (String × Nat)) (t : Rat) (hm : Bool) : Metric :=
  ⟨"ConfusionMatrix", .matrix cm ugt, some t, some hm, none⟩

/-- The dictionary of `compute_precision_recall`; a missing key of the `defaultdict` is an empty list. -/
structure Report where
  accuracy : List Metric
  counts : List Metric
  precision : List Metric
  recall : List Metric
  f1 : List Metric
deriving DecidableEq, Repr

/-- The body of the two loops of `unpack_precision_recall` (`utilities.py` 33-66): the counts metric, precision, recall and
F1 of one label and one threshold. -/
def unpackCell (ms : List ThresholdMetrics) (hm : Bool) (lb : Nat × String) (x : Rat × Nat) : Option (Metric × Metric × Metric × Metric) := do
  let row ← ms[x.2]?
  let m ← row.labels[lb.1]?
  some (Metric.counts m.counts.tp m.counts.fp m.counts.fn m.counts.tn x.1 hm lb.2, Metric.precision m.precision x.1 hm lb.2,
    Metric.recall m.recall x.1 hm lb.2, Metric.f1Score m.f1 x.1 hm lb.2)

/-- `unpack_precision_recall` (`utilities.py` 10-67). The four lists of the loops are filled together. -/
def unpackPrecisionRecall (ms : List ThresholdMetrics) (ts : List Rat) (hm : Bool) (labels : List (Nat × String)) : Option Report := do
  let acc ← ts.zipIdx.mapM (fun x => (ms[x.2]?).map (fun m => Metric.accuracy m.accuracy x.1 hm))
  let cells ← labels.mapM (fun lb => ts.zipIdx.mapM (unpackCell ms hm lb))
  let cells := cells.flatten
  some ⟨acc, cells.map (fun c => c.1), cells.map (fun c => c.2.1), cells.map (fun c => c.2.2.1), cells.map (fun c => c.2.2.2)⟩

/-- `Evaluator.compute_precision_recall` (`evaluator.py` 569-627) with its result. `info.number_of_labels` is the length of
`index_to_label` (`evaluator.py` 334-350). -/
def reportPrecisionRecall (frags : List (List Row)) (ts : List Rat) (hm : Bool) (labels : List (Nat × String))
    (datums : Option (Row → Bool) := none) : Option Report :=
  (computePrecisionRecall frags ts hm labels.length datums).bind (fun ms => unpackPrecisionRecall ms ts hm labels)

/-- The body of the inner loop over the labels (`utilities.py` 103-108). The last line is `cm_dict[label][plabel] = ..`. -/
def putCell (M : CM) (lb : Nat × String) (d : List (String × List (String × Nat))) (q : Nat × String) :
    Option (List (String × List (String × Nat))) := do
  let d := if (d.map Prod.fst).contains lb.2 then d else dictPut d lb.2 []
  let row ← M.cells[lb.1]?
  let v ← row[q.1]?
  some (dictPut d lb.2 (dictPut ((d.lookup lb.2).getD []) q.2 v))

/-- The body of the loop over the labels (`utilities.py` 101-108). -/
def putLabel (M : CM) (labels : List (Nat × String)) (d : List (String × List (String × Nat)) × List (String × Nat)) (lb : Nat × String) :
    Option (List (String × List (String × Nat)) × List (String × Nat)) := do
  let u ← M.unmatched[lb.1]?
  let cm ← labels.foldlM (putCell M lb) d.1
  some (cm, dictPut d.2 lb.2 u)

/-- `unpack_confusion_matrix` (`utilities.py` 90-118). -/
def unpackConfusionMatrix (Ms : List CM) (labels : List (Nat × String)) (ts : List Rat) (hm : Bool) : Option (List Metric) :=
  ts.zipIdx.mapM (fun x => do
    let M ← Ms[x.2]?
    let d ← labels.foldlM (putLabel M labels) ([], [])
    some (Metric.confusionMatrix d.1 d.2 x.1 hm))

/-- `Evaluator.compute_confusion_matrix` (`evaluator.py` 629-695) with its result. -/
def reportConfusionMatrix (frags : List (List Row)) (ts : List Rat) (hm : Bool) (labels : List (Nat × String))
    (datums : Option (Row → Bool) := none) : Option (List Metric) :=
  if ts.isEmpty then none
  else
    let tables := match datums with
      | none => frags
      | some p => frags.map (fun f => f.filter p)
    (evalCM tables ts hm labels.length).bind (fun Ms => unpackConfusionMatrix Ms labels ts hm)

/-- `unpack_rocauc` (`utilities.py` 70-87): the list of ROCAUC metrics and the list with the mean. -/
def unpackRocauc (areas : List Rat) (mean : Rat) (labels : List (Nat × String)) : Option (List Metric × List Metric) := do
  let ms ← labels.mapM (fun lb => (areas[lb.1]?).map (fun a => Metric.rocAuc a lb.2))
  some (ms, [Metric.meanRocAuc mean])

/-- `Evaluator.compute_rocauc` (`evaluator.py` 524-567) with its result; `chunks` are the arrays of the ROC curve cache. -/
def reportRocauc (frags : List (List Row)) (chunks : List (List RocRow)) (labels : List (Nat × String)) : Option (List Metric × List Metric) :=
  unpackRocauc ((List.range labels.length).map (rocauc frags chunks)) (meanRocauc frags chunks labels.length) labels

end Verif.Classification
