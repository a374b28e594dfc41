import Verif.Classification.Report

/-!
# The metric lists with examples (`classification/utilities.py` 137-314, `classification/metric.py` 365-535,
`classification/evaluator.py` 697-875)

Dictionaries keyed by label are lists of items in the order of insertion. In the code the matrices with examples are keyed by label from
the start; here the cells are filled by label id (`evalExCM`) and named at the end, which is the same since labels and ids are in
bijection (C12). `labels` are the labels by id.
-/

namespace Verif.Classification

/-- `Metric.examples` (`metric.py` 365-438): the datum id and the three lists of labels are in `value`. -/
structure ExamplesMetric where
  type : String
  value : Example
  threshold : Rat
  hardmax : Bool
deriving DecidableEq, Repr

/-- The list of `compute_examples` (`evaluator.py` 697-787): `unpack_examples` (`utilities.py` 137-195) appends, for each datum, one metric
for each threshold, with this threshold as parameter. -/
def reportExamples (frags : List (List Row)) (labels : List String) (ts : List Rat) (hm : Bool) : Option (List ExamplesMetric) :=
  (evalExamples frags labels ts hm).map (fun R => R.flatMap (fun es => (es.zip ts).map (fun x => ⟨"Examples", x.1, x.2, hm⟩)))

/-- `Metric.confusion_matrix_with_examples` (`metric.py` 440-535). -/
structure ExamplesMatrix where
  type : String
  cells : List (String × List (String × Cell (String × Rat)))
  unmatched : List (String × Cell String)
  threshold : Rat
  hardmax : Bool
deriving DecidableEq

/-- The metric at one threshold; the dictionaries have a key for every label (`utilities.py` 198-216). -/
def ExCM.named (M : ExCM) (labels : List String) (t : Rat) (hm : Bool) : ExamplesMatrix :=
  ⟨"ConfusionMatrixWithExamples", labels.zip (M.cells.map (fun r => labels.zip r)), labels.zip M.unmatched, t, hm⟩

/-- The list of `compute_confusion_matrix_with_examples` (`evaluator.py` 789-875): one metric for each threshold, each updated with every
table (`utilities.py` 292-314). -/
def reportExCM (frags : List (List Row)) (labels : List String) (ts : List Rat) (hm : Bool) : Option (List ExamplesMatrix) :=
  (evalExCM frags ts hm labels.length).map (fun Ms => (Ms.zip ts).map (fun x => x.1.named labels x.2 hm))

end Verif.Classification
