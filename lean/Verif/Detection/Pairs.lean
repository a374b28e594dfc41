import Verif.Detection.Rank

/-!
# Pair matching and confusion matrix (`object_detection/computation.py` 615-887,
`object_detection/evaluator.py` 537-602)

One IoU threshold and one score threshold; the masks are given per row of the table (they only depend on
the content of the row).
-/

namespace Verif.Detection

open Verif.Classification (unique)

/-- The packed key of `_isin` (`computation.py` 634-639): the first id as `int64` shifted by 32 bits, or-ed
with the second as `int32` (numpy promotes it to `int64` with its sign). -/
def packKey (a b : Int) : BitVec 64 := (BitVec.ofInt 64 a <<< 32) ||| (BitVec.ofInt 32 b).signExtend 64

/-- `_isin` for one row (`computation.py` 615-641). -/
def isin (x : Int × Int) (subset : List (Int × Int)) : Bool :=
  decide (packKey x.1 x.2 ∈ subset.map (fun y => packKey y.1 y.2))

/-- The loop of `mask_pairs_greedily` (`computation.py` 667-674): `usedGt`, `usedPd` are the flagged
indices. -/
def greedy : List Int → List Int → List Row → List Bool
  | _, _, [] => []
  | usedGt, usedPd, r :: rs =>
    if !(decide (r.gt < 0) || decide (r.pd < 0) || decide (r.gt ∈ usedGt) || decide (r.pd ∈ usedPd)) then
      true :: greedy (r.gt :: usedGt) (r.pd :: usedPd) rs
    else false :: greedy usedGt usedPd rs

/-- `np.unique(pairs[np.ix_(keep, (1, 2))], axis=0)` (`computation.py` 678). -/
def keptPairs (rows : List Row) : List (Int × Int) :=
  unique (((rows.zip (greedy [] [] rows)).filter Prod.snd).map (fun x => (x.1.gt, x.1.pd)))

/-- The result of `mask_pairs_greedily` for a row (`computation.py` 676-681). An empty table raises in
`max`; the callers skip empty tables (`evaluator.py` 564, 657, 768). -/
def matched (rows : List Row) (r : Row) : Bool := isin (r.gt, r.pd) (keptPairs rows)

/-- `mask_score` (`computation.py` 742, 754-755). -/
def maskScore (s : Rat) (r : Row) : Bool := decide (r.score > EPSILON) && decide (r.score ≥ s)

/-- `mask_thresholded_matched_pairs` (`computation.py` 743, 751-759). -/
def thresholded (rows : List Row) (t s : Rat) (r : Row) : Bool :=
  matched rows r && (decide (r.iou > EPSILON) && decide (r.iou ≥ t)) && maskScore s r

/-- `mask_gt_pd_match` (`computation.py` 739-741, 745-746); `> -0.5` on integers. -/
def gtPdMatch (r : Row) : Bool := (decide (0 ≤ r.gt) && decide (0 ≤ r.pd)) && labelMatch r

/-- `mask_true_positives` (`computation.py` 761-763). -/
def pairTp (rows : List Row) (t s : Rat) (r : Row) : Bool := thresholded rows t s r && gtPdMatch r

/-- `mask_misclf` (`computation.py` 764). -/
def pairMisclf (rows : List Row) (t s : Rat) (r : Row) : Bool := thresholded rows t s r && !gtPdMatch r

/-- `mask_unmatched_predictions` (`computation.py` 772-783). -/
def pairFp (rows : List Row) (t s : Rat) (r : Row) : Bool :=
  (!isin (r.datum, r.pd) (unique ((rows.filter (thresholded rows t s)).map (fun x => (x.datum, x.pd))))
    && decide (0 ≤ r.pd)) && maskScore s r

/-- `mask_unmatched_groundtruths` (`computation.py` 766-771, 784-787). -/
def pairFn (rows : List Row) (t s : Rat) (r : Row) : Bool :=
  !isin (r.datum, r.gt) (unique ((rows.filter (thresholded rows t s)).map (fun x => (x.datum, x.gt)))) && decide (0 ≤ r.gt)

/-- The cell of the confusion matrix of one table (`computation.py` 848-861). -/
def cmCell (rows : List Row) (t s : Rat) (g p : Int) : Nat :=
  ((unique ((rows.filter (fun r => pairTp rows t s r || pairMisclf rows t s r)).map
    (fun r => [r.datum, r.gt, r.pd, r.gl, r.pl]))).filter (fun k => decide (k[3]? = some g) && decide (k[4]? = some p))).length

/-- Unmatched ground truths of a label in one table (`computation.py` 864-873). -/
def unmatchedGt (rows : List Row) (t s : Rat) (l : Int) : Nat :=
  ((unique ((rows.filter (pairFn rows t s)).map (fun r => [r.datum, r.gt, r.gl]))).filter (fun k => decide (k[2]? = some l))).length

/-- Unmatched predictions of a label in one table (`computation.py` 876-885). -/
def unmatchedPd (rows : List Row) (t s : Rat) (l : Int) : Nat :=
  ((unique ((rows.filter (pairFp rows t s)).map (fun r => [r.datum, r.pd, r.pl]))).filter (fun k => decide (k[2]? = some l))).length

/-- Sum over the tables of the detailed cache (`evaluator.py` 552-593). -/
def cmTotal (tables : List (List Row)) (t s : Rat) (g p : Int) : Nat := (tables.map (fun r => cmCell r t s g p)).sum

/-- See `cmTotal`. -/
def unmatchedGtTotal (tables : List (List Row)) (t s : Rat) (l : Int) : Nat := (tables.map (fun r => unmatchedGt r t s l)).sum

/-- See `cmTotal`. -/
def unmatchedPdTotal (tables : List (List Row)) (t s : Rat) (l : Int) : Nat := (tables.map (fun r => unmatchedPd r t s l)).sum

end Verif.Detection
