import Verif.Segmentation.Model
import Verif.Shared.Dict

/-!
# The metric lists of segmentation (`semantic_segmentation/utilities.py` 6-88, `semantic_segmentation/metric.py`,
`semantic_segmentation/evaluator.py` 391-414)
-/

namespace Verif.Segmentation

open Verif.Shared (dictOf)

/-- The values of metrics. `none` is NaN. -/
inductive MetricValue where
  | number (value : Option Rat)
  | matrix (confusionMatrix : List (String × List (String × Rat))) (unmatchedPredictions unmatchedGroundTruths : List (String × Rat))
deriving DecidableEq, Repr

/-- `Metric` (`metric.py` 17-48). The only parameter is the label; the innermost dictionaries of the confusion matrix have one
entry (`iou` or `ratio`). -/
structure Metric where
  type : String
  value : MetricValue
  label : Option String
deriving DecidableEq, Repr

/-- `Metric.precision` (`metric.py` 50-79). -/
def Metric.precision (value : Rat) (label : String) : Metric := ⟨"Precision", .number (some value), some label⟩

/-- `Metric.recall` (`metric.py` 81-110). -/
def Metric.recall (value : Rat) (label : String) : Metric := ⟨"Recall", .number (some value), some label⟩

/-- `Metric.f1_score` (`metric.py` 112-138). -/
def Metric.f1Score (value : Rat) (label : String) : Metric := ⟨"F1", .number (some value), some label⟩

/-- `Metric.iou` (`metric.py` 140-166). -/
def Metric.iou (value : Rat) (label : String) : Metric := ⟨"IOU", .number (some value), some label⟩

/-- `Metric.mean_iou` (`metric.py` 168-184). -/
def Metric.meanIou (value : Option Rat) : Metric := ⟨"mIOU", .number value, none⟩

/-- `Metric.accuracy` (`metric.py` 186-200). -/
def Metric.accuracy (value : Rat) : Metric := ⟨"Accuracy", .number (some value), none⟩

/-- `Metric.confusion_matrix` (`metric.py` 202-275). -/
def Metric.confusionMatrix (cm : List (String × List (String × Rat))) (up ug : List (String × Rat)) : Metric :=
  ⟨"ConfusionMatrix", .matrix cm up ug, none⟩

/-- Exceptions of the functions below. -/
inductive RepErr where
  | keyError
  | indexError
deriving DecidableEq, Repr

/-- The dictionary of `compute_precision_recall_iou`; a missing key of the `defaultdict` is an empty list. -/
structure Report where
  accuracy : List Metric
  confusionMatrix : List Metric
  meanIou : List Metric
  precision : List Metric
  recall : List Metric
  f1 : List Metric
  iou : List Metric
deriving DecidableEq, Repr

/-- `index_to_label[k]`. -/
def labelOf (labels : List (Int × String)) (k : Nat) : Except RepErr String :=
  match labels.lookup (k : Int) with
  | some v => .ok v
  | none => .error .keyError

/-- `{index_to_label[k]: f(k) for k in range(n)}`. -/
def comprehension {β : Type} (labels : List (Int × String)) (n : Nat) (f : Nat → Except RepErr β) : Except RepErr (List (String × β)) :=
  ((List.range n).mapM (fun k => (labelOf labels k).bind (fun v => (f k).bind (fun y => .ok (v, y))))).map dictOf

/-- An item of `index_to_label` as an index of an axis with `n` entries; a negative key counts from the end. -/
def axisOf (n : Nat) (k : Int) : Except RepErr Nat :=
  if 0 ≤ k then (if k < (n : Int) then .ok k.toNat else .error .indexError)
  else if -(n : Int) ≤ k then .ok (k + (n : Int)).toNat else .error .indexError

/-- `unpack_precision_recall_iou_into_metric_lists` (`utilities.py` 6-88) for the results of `compute_metrics` on the matrix `m`. -/
def unpackReport (m : Nat → Nat → Nat) (labels : List (Int × String)) : Except RepErr Report := do
  let n := labels.length
  let cm ← comprehension labels n (fun i => comprehension labels n (fun j => .ok (iou n m i j)))
  let up ← comprehension labels n (fun j => .ok (unmatchedPrediction n m j))
  let ug ← comprehension labels n (fun i => .ok (unmatchedGroundtruth n m i))
  let cells ← labels.mapM (fun lb => (axisOf n lb.1).bind (fun k =>
    .ok (Metric.precision (precision n m k) lb.2, Metric.recall (recall n m k) lb.2, Metric.f1Score (f1 n m k) lb.2, Metric.iou (iou n m k k) lb.2)))
  .ok ⟨[Metric.accuracy (accuracy n m)], [Metric.confusionMatrix cm up ug], [Metric.meanIou (meanIou n m)],
    cells.map (fun c => c.1), cells.map (fun c => c.2.1), cells.map (fun c => c.2.2.1), cells.map (fun c => c.2.2.2)⟩

/-- `Evaluator.compute_precision_recall_iou` (`evaluator.py` 391-414). -/
def Evaluator.report (e : Evaluator) (datums : Option Expr) : Except RepErr Report :=
  unpackReport (confusionMatrix e.labels.length datums e.tables) e.labels

end Verif.Segmentation
