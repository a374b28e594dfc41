import Verif.Detection.Rank
import Mathlib.Data.Rat.Floor

/-!
# Counts, precision-recall curve and average precision (`object_detection/computation.py` 332-612,
`object_detection/shared.py` 188-206, `object_detection/evaluator.py` 438-495)

The arrays are indexed by IoU threshold, score threshold and label; the model gives the entry of one
IoU threshold, one score threshold and one label. Counts are natural numbers.
-/

namespace Verif.Detection

open Verif.Classification (unique)

/-! ## `compute_counts` -/

/-- `mask_iou` (`computation.py` 412-414). -/
def maskIou (t : Rat) (r : RRow) : Bool := decide (r.row.iou ≥ t) && decide (r.prev < t)

/-- `mask_gt_exists_labels_match` (`computation.py` 403-406). -/
def maskMatch (r : RRow) : Bool := decide (r.row.gt ≥ 0) && labelMatch r.row

/-- `mask_score_nonzero` (`computation.py` 402). -/
def scoreNonzero (r : RRow) : Bool := decide (r.row.score > EPSILON)

/-- `mask_tp_outer` (`computation.py` 408, 416). -/
def tpOuter (t : Rat) (r : RRow) : Bool := (scoreNonzero r && maskMatch r) && maskIou t r

/-- `mask_fp_outer` (`computation.py` 409, 417-419). -/
def fpOuter (t : Rat) (r : RRow) : Bool := scoreNonzero r && ((!maskMatch r && maskIou t r) || !maskIou t r)

/-- `mask_tp_inner` (`computation.py` 422-424). -/
def tpInner (t s : Rat) (r : RRow) : Bool := tpOuter t r && decide (r.row.score ≥ s)

/-- `mask_fp_inner` before it is extended (`computation.py` 422-425). -/
def fpInner (t s : Rat) (r : RRow) : Bool := fpOuter t r && decide (r.row.score ≥ s)

/-- `true_positives_mask` (`computation.py` 428-436): the candidates that are the first of their
`(datum_id, gt_id, gt_label_id)`; `seen` are the keys of the candidates so far. -/
def truePositives (t s : Rat) : List (List Int) → List RRow → List Bool
  | _, [] => []
  | seen, r :: rs =>
    if tpInner t s r then (!seen.contains (gtKey r.row)) :: truePositives t s (gtKey r.row :: seen) rs
    else false :: truePositives t s seen rs

/-- True positives of label `l` in one table (`computation.py` 441-445). -/
def tpCount (t s : Rat) (rows : List RRow) (l : Int) : Nat :=
  ((rows.zip (truePositives t s [] rows)).filter (fun x => decide (x.1.row.pl = l) && x.2)).length

/-- False positives of label `l` in one table (`computation.py` 438, 447-450). -/
def fpCount (t s : Rat) (rows : List RRow) (l : Int) : Nat :=
  ((rows.zip (truePositives t s [] rows)).filter (fun x => decide (x.1.row.pl = l) &&
    (fpInner t s x.1 || (tpInner t s x.1 && !x.2)))).length

/-- `counts` of the evaluator (`evaluator.py` 452, 481): sum over the tables of the ranked cache. -/
def tpTotal (t s : Rat) (chunks : List (List RRow)) (l : Int) : Nat := (chunks.map (fun c => tpCount t s c l)).sum

/-- See `tpTotal`. -/
def fpTotal (t s : Rat) (chunks : List (List RRow)) (l : Int) : Nat := (chunks.map (fun c => fpCount t s c l)).sum

/-- `extract_groundtruth_count_per_label` (`shared.py` 188-206): distinct `(gt_id, gt_label_id)` of each
table of the detailed cache. -/
def gtCount (tables : List (List Row)) (l : Int) : Nat :=
  (tables.map (fun t => ((unique ((t.filter (fun r => decide (r.gt ≥ 0))).map (fun r => (r.gt, r.gl)))).map Prod.snd).count l)).sum

/-- `counts[:, :, 2, :] = n_gts_per_lbl - counts[:, :, 0, :]` (`evaluator.py` 484) on `uint64`. -/
def fnTotal (t s : Rat) (tables : List (List Row)) (chunks : List (List RRow)) (l : Int) : Nat :=
  (gtCount tables l + 2 ^ 64 - tpTotal t s chunks l) % 2 ^ 64

/-- `compute_precision_recall_f1` (`computation.py` 534-567), precision. -/
def precision (tp fp : Nat) : Rat := if tp + fp > 0 then (tp : Rat) / ((tp + fp : Nat) : Rat) else 0

/-- `compute_precision_recall_f1`, recall. -/
def recall (tp n : Nat) : Rat := if n > 0 then (tp : Rat) / (n : Rat) else 0

/-- `compute_precision_recall_f1`, F1. -/
def f1 (p r : Rat) : Rat := if p + r > EPSILON then 2 * (p * r) / (p + r) else 0

/-! ## The precision-recall curve -/

/-- A point of the curve: recall bin, precision, score. -/
structure Point where
  bin : Nat
  prec : Rat
  score : Rat
deriving DecidableEq, Repr

/-- The points of the rows of one label in one table, and the running counts after it
(`computation.py` 453-490). `total` and `tp` are `running_counts` of the label, `n` its number of ground
truths. Rows that are no true positives have running true positive count 0. -/
def points (t : Rat) (n : Nat) : Nat → Nat → List RRow → List Point × (Nat × Nat)
  | total, tp, [] => ([], (total, tp))
  | total, tp, r :: rs =>
    let c := if tpOuter t r then tp + 1 else 0
    let rest := points t n (total + 1) (if tpOuter t r then tp + 1 else tp) rs
    (⟨(⌊recall c n * 100⌋).toNat, (c : Rat) / ((total + 1 : Nat) : Rat), r.row.score⟩ :: rest.1, rest.2)

/-- Update of the precisions of the curve (`computation.py` 518-529): each bin that has a point takes the
maximum of its value and of the highest precision of its points. -/
def updatePrec (curve : Nat → Rat) (ps : List Point) : Nat → Rat := fun b =>
  ((ps.filter (fun p => decide (p.bin = b))).map Point.prec).foldl max (curve b)

/-- Update of the scores of the curve (`computation.py` 506-514): each bin that has a point takes the
maximum of its value and of the score of its first point. -/
def updateScore (curve : Nat → Rat) (ps : List Point) : Nat → Rat := fun b =>
  match ps.find? (fun p => decide (p.bin = b)) with
  | some p => max (curve b) p.score
  | none => curve b

/-- `running_counts` and `pr_curve` of one IoU threshold and label. -/
structure Curve where
  total : Nat
  tp : Nat
  prec : Nat → Rat
  score : Nat → Rat

/-- Zero arrays (`evaluator.py` 453-454). -/
def Curve.init : Curve := ⟨0, 0, fun _ => 0, fun _ => 0⟩

/-- The effect of `compute_counts` on curve and running counts of label `l`. -/
def curveStep (t : Rat) (n : Nat) (l : Int) (c : Curve) (rows : List RRow) : Curve :=
  let r := points t n c.total c.tp (rows.filter (fun r => decide (r.row.pl = l)))
  ⟨r.2.1, r.2.2, updatePrec c.prec r.1, updateScore c.score r.1⟩

/-- The loop over the tables of the ranked cache (`evaluator.py` 456-481). -/
def curveOf (t : Rat) (n : Nat) (l : Int) (chunks : List (List RRow)) : Curve :=
  chunks.foldl (curveStep t n l) Curve.init

/-- The sweep of `compute_average_precision` (`computation.py` 588-604) over the bins `k-1, ..., 0`:
returns the interpolated values in ascending order of bins and their sum. -/
def sweep (curve : Nat → Rat) : Nat → Rat → List Rat × Rat
  | 0, _ => ([], 0)
  | k + 1, m =>
    let m' := max (curve k) m
    let rest := sweep curve k m'
    (rest.1 ++ [m'], m' + rest.2)

/-- Average precision (`computation.py` 577-606). -/
def averagePrecision (curve : Nat → Rat) : Rat := (sweep curve 101 0).2 / 101

/-- The interpolated curve that is reported (`computation.py` 592-602). -/
def interpolated (curve : Nat → Rat) : List Rat := (sweep curve 101 0).1

/-- Mean of a non-empty array; `mAP` is the mean over labels (`computation.py` 610), average recall the
mean over IoU thresholds and `mAR` the mean of that over labels (570-574). An array without labels is not
averaged (609). -/
def mean (l : List Rat) : Rat := l.sum / (l.length : Rat)

end Verif.Detection
