import Verif.Float.Sums
import Verif.Classification.Metrics
import Verif.Detection.Iou
import Verif.Detection.Counts
import Verif.Segmentation.Model
import Verif.TextGen.Model

/-!
# The metrics as the code computes them, in double precision

The models elsewhere compute with exact rationals. Here every arithmetic operation on floats is rounded (`fl`), in the order of the
code. Integers are converted to doubles where NumPy does so. There is no overflow.
-/

namespace Verif.Float

open Verif.Shared

/-- `np.divide` of two unsigned integers: both are converted to doubles first. -/
def flDiv (a b : Nat) : Rat := fl (fl a / fl b)

/-- `np.divide(a, b, where=b > 0, out=zeros)` on counts (also with `b > 1e-9`: `b` is an integer). -/
def flRatio (a b : Nat) : Rat := if b > 0 then flDiv a b else 0

/-! ## Classification -/

/-- `compute_precision` (`classification/computation.py` 172-184). -/
def clsPrecision (c : Classification.Counts) : Rat := flRatio c.tp (c.tp + c.fp)

/-- `compute_recall` (`classification/computation.py` 187-199). -/
def clsRecall (c : Classification.Counts) : Rat := flRatio c.tp (c.tp + c.fn)

/-- `compute_f1_score` (`classification/computation.py` 202-215): `(2 * precision * recall) / (precision + recall)`. -/
def clsF1 (p r : Rat) : Rat := if fl (p + r) > fl (1 / 1000000000) then fl (fl (fl (2 * p) * r) / fl (p + r)) else 0

/-- `compute_accuracy` (`classification/computation.py` 218-233). -/
def clsAccuracy (row : List Classification.Counts) (nDatums : Nat) : Rat :=
  if nDatums = 0 then 0 else flDiv (row.map Classification.Counts.tp).sum nDatums

/-! ## Object detection -/

/-- Precision (`object_detection/computation.py` 547-552). -/
def detPrecision (tp fp : Nat) : Rat := flRatio tp (tp + fp)

/-- Recall (`object_detection/computation.py` 553-558). -/
def detRecall (tp n : Nat) : Rat := flRatio tp n

/-- F1 (`object_detection/computation.py` 559-566): `2 * np.multiply(p, r) / (p + r)`. -/
def detF1 (p r : Rat) : Rat := if fl (p + r) > fl Detection.EPSILON then fl (fl (2 * fl (p * r)) / fl (p + r)) else 0

/-- The sweep of `compute_average_precision` (`object_detection/computation.py` 588-604) over the bins `k-1, ..., 0`; `m` is the
running maximum, `acc` the running sum. -/
def flSweep (curve : Nat → Rat) : Nat → Rat → Rat → Rat
  | 0, _, acc => acc
  | k + 1, m, acc =>
    let m' := max (curve k) m
    flSweep curve k m' (fl (acc + m'))

/-- Average precision (`object_detection/computation.py` 577-606). -/
def flAp (curve : Nat → Rat) : Rat := fl (flSweep curve 101 0 0 / 101)

/-- A value that `mean` of a non-empty array can return (`object_detection/computation.py` 572-573, 610,
`object_detection/utilities.py` 45, 55, 83, 94, `classification/evaluator.py` 561, `semantic_segmentation/utilities.py` 58): a sum in
some order, divided by the number of elements. -/
def IsMean (xs : List Rat) (v : Rat) : Prop := ∃ s, Sums xs s ∧ v = fl (s / fl xs.length)

/-- `compute_bbox_iou` (`object_detection/computation.py` 11-79). -/
def flBbox (a b : Detection.Box) : Rat :=
  let xmin := max a.xmin b.xmin
  let ymin := max a.ymin b.ymin
  let xmax := min a.xmax b.xmax
  let ymax := min a.ymax b.ymax
  let width := max 0 (fl (xmax - xmin))
  let height := max 0 (fl (ymax - ymin))
  let inter := fl (width * height)
  let area1 := fl (fl (a.xmax - a.xmin) * fl (a.ymax - a.ymin))
  let area2 := fl (fl (b.xmax - b.xmin) * fl (b.ymax - b.ymin))
  let union := fl (fl (area1 + area2) - inter)
  if union ≥ fl Detection.EPSILON then fl (inter / union) else 0

/-- `compute_bitmask_iou` (`object_detection/computation.py` 82-126): the counts are integers. -/
def flBitmask (a b : List Bool) : Rat :=
  let inter := Detection.popcount (List.zipWith (· && ·) a b)
  flRatio inter (Detection.popcount a + Detection.popcount b - inter)

/-! ## Semantic segmentation -/

/-- `precision` (`semantic_segmentation/computation.py` 136-137). -/
def segPrecision (n : Nat) (m : Nat → Nat → Nat) (i : Nat) : Rat := flRatio (m (i + 1) (i + 1)) (Segmentation.pdCounts n m i)

/-- `recall` (`semantic_segmentation/computation.py` 139-140). -/
def segRecall (n : Nat) (m : Nat → Nat → Nat) (i : Nat) : Rat := flRatio (m (i + 1) (i + 1)) (Segmentation.gtCounts n m i)

/-- `unmatched_prediction_ratio` (`semantic_segmentation/computation.py` 117-123). -/
def segUnmatchedPd (n : Nat) (m : Nat → Nat → Nat) (j : Nat) : Rat := flRatio (m 0 (j + 1)) (Segmentation.pdCounts n m j)

/-- `unmatched_ground_truth_ratio` (`semantic_segmentation/computation.py` 125-131). -/
def segUnmatchedGt (n : Nat) (m : Nat → Nat → Nat) (i : Nat) : Rat := flRatio (m (i + 1) 0) (Segmentation.gtCounts n m i)

/-- `ious` (`semantic_segmentation/computation.py` 104-115). -/
def segIou (n : Nat) (m : Nat → Nat → Nat) (i j : Nat) : Rat :=
  flRatio (m (i + 1) (j + 1))
    (Segmentation.u64 ((Segmentation.gtCounts n m i + Segmentation.pdCounts n m j : Nat) - (m (i + 1) (j + 1) : Nat) : Int))

/-- `accuracy` (`semantic_segmentation/computation.py` 150-155). -/
def segAccuracy (n : Nat) (m : Nat → Nat → Nat) : Rat :=
  let tp := Segmentation.u64 (((List.range n).map (fun i => m (i + 1) (i + 1))).sum : Nat)
  flRatio (Segmentation.u64 ((tp + m 0 0 : Nat) : Int)) (Segmentation.nPixels n m)

/-- `f1_score` (`semantic_segmentation/computation.py` 142-148): `2 * (precision * recall) / (precision + recall)`. -/
def segF1 (p r : Rat) : Rat := if fl (p + r) > 0 then fl (fl (2 * fl (p * r)) / fl (p + r)) else 0

/-! ## Text generation -/

/-- `tp / (tp + 0.5 * (fp + fn))` (`text_generation/computation.py` 82); integers are converted. -/
def answerF1 (tp fp fn : Nat) : Rat :=
  if tp > 0 then fl (fl tp / fl (fl tp + fl (1 / 2 * fl ((fp + fn : Nat) : Rat)))) else 0

/-- `sum(verdicts) / len(verdicts)` (`text_generation/computation.py` 128, 170, 357, 449, 525): division of two Python integers,
rounded once. -/
def verdictShare (yes n : Nat) : Rat := fl ((yes : Rat) / n)

/-- The last lines of `calculate_context_precision` (`text_generation/computation.py` 246-260), with the sum from left to right. -/
def flContextPrecision (agg : List Bool) : Rat :=
  let ps := (TextGen.precisionAtK agg).map fl
  if ps.length = 0 then 0 else fl (seqSum 0 ps / fl ps.length)

end Verif.Float
