import Verif.Detection.Counts
import Verif.Detection.Pairs

/-!
# The threshold loops and the metric lists (`object_detection/computation.py` 332-612, 684-887,
`object_detection/evaluator.py` 415-602, `object_detection/utilities.py` 10-189)

`Counts` and `Pairs` describe one IoU threshold, one score threshold and one label. Here the loops over the
threshold arrays are modelled with the arrays they fill, the loop over the labels that fills the running
counts, and the functions that turn the arrays into metrics. Arrays are functions of their indices; the
entries that the code never writes keep their zero.
-/

namespace Verif.Detection

open Verif.Classification (unique)

/-- Exceptions of the metric functions. -/
inductive MErr where
  | valueError
  | indexError
deriving DecidableEq, Repr

/-- `a[i] = v`. -/
def put {α : Type} (a : Nat → α) (i : Nat) (v : α) : Nat → α := fun k => if k = i then v else a k

/-! ## `compute_counts` -/

/-- `a[mask] = np.arange(start, start + mask.sum())` (`computation.py` 460-463, 469-472). -/
def fill : List Bool → Nat → List Nat → List Nat
  | b :: bs, s, a :: as => if b then s :: fill bs (s + 1) as else a :: fill bs s as
  | _, _, as => as

/-- `true_positives_mask` from `mask_tp_inner` (`computation.py` 428-436): the first candidate of each
`(datum_id, gt_id, gt_label_id)`. -/
def firstMask : List (List Int) → List (RRow × Bool) → List Bool
  | _, [] => []
  | seen, x :: xs =>
    if x.2 then (!seen.contains (gtKey x.1.row)) :: firstMask (gtKey x.1.row :: seen) xs else false :: firstMask seen xs

/-- The variables of the loop over the score thresholds (`computation.py` 421-450): the two masks of the
IoU threshold and the two slices of `counts`. -/
structure ScoreLoop where
  tpOuter : List Bool
  fpOuter : List Bool
  tp : Nat → Int → Nat
  fp : Nat → Int → Nat

/-- `np.bincount(pd_labels, weights=mask)` and `np.bincount(pd_labels[mask])` (`computation.py` 441-450). -/
def bincount (rows : List RRow) (mask : List Bool) (l : Int) : Nat :=
  ((rows.zip mask).filter (fun x => decide (x.1.row.pl = l) && x.2)).length

/-- The body of the loop over the score thresholds (`computation.py` 422-450). `&` makes new arrays;
`mask_fp_inner |= ...` changes one of these. -/
def scoreBody (rows : List RRow) (scores : List Rat) (st : ScoreLoop) (j : Nat) : ScoreLoop :=
  let thresh := rows.map (fun r => decide (r.row.score ≥ scores.getD j 0))
  let tpInner := List.zipWith (· && ·) st.tpOuter thresh
  let fpInner := List.zipWith (· && ·) st.fpOuter thresh
  let mask := firstMask [] (rows.zip tpInner)
  let fpInner := List.zipWith (· || ·) fpInner (List.zipWith (fun a b => a && !b) tpInner mask)
  { st with tp := put st.tp j (bincount rows mask), fp := put st.fp j (bincount rows fpInner) }

/-- The variables of the loop over the labels (`computation.py` 453-473): the slice of `running_counts`
(total, true positives), the rows of `running_total_count` and of `running_tp_count`. -/
structure LabelLoop where
  run : Int → Nat × Nat
  total : List Nat
  tp : List Nat

/-- The body of the loop over the labels (`computation.py` 454-473). The labels come from the rows, so
`total_count` is not zero. -/
def labelBody (rows : List RRow) (tpOuter : List Bool) (st : LabelLoop) (l : Int) : LabelLoop :=
  let mask := rows.map (fun r => decide (r.row.pl = l))
  let maskTp := List.zipWith (· && ·) mask tpOuter
  ⟨fun k => if k = l then ((st.run l).1 + mask.count true, (st.run l).2 + maskTp.count true) else st.run k,
    fill mask ((st.run l).1 + 1) st.total, fill maskTp ((st.run l).2 + 1) st.tp⟩

/-- The variables of the loop over the IoU thresholds (`computation.py` 411-473). -/
structure IouLoop where
  tp : Nat → Nat → Int → Nat
  fp : Nat → Nat → Int → Nat
  run : Nat → Int → Nat × Nat
  total : Nat → List Nat
  tps : Nat → List Nat

/-- The body of the loop over the IoU thresholds (`computation.py` 412-473). -/
def iouBody (rows : List RRow) (ious scores : List Rat) (st : IouLoop) (i : Nat) : IouLoop :=
  let t := ious.getD i 0
  let tpo := rows.map (tpOuter t)
  let fpo := rows.map (fpOuter t)
  let s := (List.range scores.length).foldl (scoreBody rows scores) ⟨tpo, fpo, st.tp i, st.fp i⟩
  let r := (unique (rows.map (fun r => r.row.pl))).foldl (labelBody rows s.tpOuter) ⟨st.run i, st.total i, st.tps i⟩
  ⟨put st.tp i s.tp, put st.fp i s.fp, put st.run i r.run, put st.total i r.total, put st.tps i r.tp⟩

/-- The precision of each row (`computation.py` 476-482). -/
def rowPrecision (total tps : List Nat) : List Rat :=
  List.zipWith (fun (tp tot : Nat) => if tot > 0 then (tp : Rat) / (tot : Rat) else 0) tps total

/-- The key `(label, recall bin)` of each row (`computation.py` 483-490, 497-502). -/
def rowKeys (rows : List RRow) (n : Int → Nat) (tps : List Nat) : List (Int × Nat) :=
  List.zipWith (fun r tp => (r.row.pl, (⌊recall tp (n r.row.pl) * 100⌋).toNat)) rows tps

/-- `c[li, ri] = np.maximum(c[li, ri], v[indices])` for the first row of each key (`computation.py`
506-514, 521-529). -/
def maxFirst (c : Int → Nat → Rat) (kv : List ((Int × Nat) × Rat)) : Int → Nat → Rat := fun l b =>
  match kv.find? (fun x => decide (x.1 = (l, b))) with
  | some x => max (c l b) x.2
  | none => c l b

/-- The two slices of `pr_curve`. -/
structure CurveArr where
  prec : Nat → Int → Nat → Rat
  score : Nat → Int → Nat → Rat

/-- The body of the loop that fills `pr_curve` (`computation.py` 496-529). `order` is
`np.argsort(-precision)` of one row (493), which is not a stable sort. -/
def curveBody (rows : List RRow) (n : Int → Nat) (order : List Rat → List Nat) (st : IouLoop) (c : CurveArr) (i : Nat) : CurveArr :=
  let prec := rowPrecision (st.total i) (st.tps i)
  let keys := rowKeys rows n (st.tps i)
  let kp := (order prec).filterMap (fun k => (keys.zip prec)[k]?)
  ⟨put c.prec i (maxFirst (c.prec i) kp), put c.score i (maxFirst (c.score i) (keys.zip (rows.map (fun r => r.row.score))))⟩

/-- The arrays of `compute_precision_recall`: `counts` (true and false positives), `running_counts`,
`pr_curve`. -/
structure Arrays where
  tp : Nat → Nat → Int → Nat
  fp : Nat → Nat → Int → Nat
  run : Nat → Int → Nat × Nat
  curve : CurveArr

/-- Zero arrays (`evaluator.py` 452-454). -/
def Arrays.zero : Arrays := ⟨fun _ _ _ => 0, fun _ _ _ => 0, fun _ _ => (0, 0), ⟨fun _ _ _ => 0, fun _ _ _ => 0⟩⟩

/-- `compute_counts` (`computation.py` 332-531) and the addition of its result to `counts`
(`evaluator.py` 481). A label id outside the arrays raises (`number_of_groundtruths_per_label[pd_labels]`,
or `np.bincount` for negative ids), and so does a recall bin above 100. -/
def addCounts (n : Int → Nat) (nLabels : Nat) (order : List Rat → List Nat) (ious scores : List Rat) (a : Arrays)
    (rows : List RRow) : Except MErr Arrays :=
  if rows.any (fun r => decide (r.row.pl < 0) || decide (r.row.pl ≥ (nLabels : Int))) then .error .indexError
  else
    let st := (List.range ious.length).foldl (iouBody rows ious scores)
      ⟨fun _ _ _ => 0, fun _ _ _ => 0, a.run, fun _ => List.replicate rows.length 0, fun _ => List.replicate rows.length 0⟩
    if (List.range ious.length).any (fun i => (rowKeys rows n (st.tps i)).any (fun k => decide (k.2 > 100))) then .error .indexError
    else .ok ⟨fun i j l => a.tp i j l + st.tp i j l, fun i j l => a.fp i j l + st.fp i j l, st.run,
      (List.range ious.length).foldl (curveBody rows n order st) a.curve⟩

/-- The loop over the tables of the ranked cache (`evaluator.py` 456-481). -/
def accumulate (n : Int → Nat) (nLabels : Nat) (order : List Rat → List Nat) (ious scores : List Rat)
    (chunks : List (List RRow)) : Except MErr Arrays :=
  chunks.foldlM (fun a rows => if rows.isEmpty then .ok a else addCounts n nLabels order ious scores a rows) Arrays.zero

/-! ## Metrics -/

/-- `np.mean`: a double that may be NaN (`none`), as it is for an empty array. -/
def npMean (l : List (Option Rat)) : Option Rat :=
  if l.isEmpty then none else (l.mapM id).map (fun xs => xs.sum / (xs.length : Rat))

/-- The metrics of `metric.py` that `compute_precision_recall` returns, with value and parameters. -/
inductive DMetric where
  | ap (value : Option Rat) (iou : Rat) (label : String)
  | mAP (value : Option Rat) (iou : Rat)
  | apOverIous (value : Option Rat) (ious : List Rat) (label : String)
  | mAPOverIous (value : Option Rat) (ious : List Rat)
  | ar (value : Option Rat) (ious : List Rat) (score : Rat) (label : String)
  | mAR (value : Option Rat) (ious : List Rat) (score : Rat)
  | arOverScores (value : Option Rat) (scores ious : List Rat) (label : String)
  | mAROverScores (value : Option Rat) (scores ious : List Rat)
  | prCurve (precisions scores : List Rat) (iou : Rat) (label : String)
  | counts (tp fp fn : Nat) (label : String) (iou score : Rat)
  | precision (value : Rat) (label : String) (iou score : Rat)
  | recall (value : Rat) (label : String) (iou score : Rat)
  | f1 (value : Rat) (label : String) (iou score : Rat)
deriving DecidableEq, Repr

/-- Number of ground truths and the four arrays of `compute_precision_recall` (`evaluator.py` 483-498). -/
structure Summary where
  tp : Nat → Nat → Int → Nat
  fp : Nat → Nat → Int → Nat
  fn : Nat → Nat → Int → Nat
  precision : Nat → Nat → Int → Rat
  recall : Nat → Nat → Int → Rat
  f1 : Nat → Nat → Int → Rat
  ap : Nat → Int → Rat
  mAP : Nat → Option Rat
  ar : Nat → Int → Option Rat
  mAR : Nat → Option Rat
  curvePrec : Nat → Int → List Rat
  curveScore : Nat → Int → List Rat

/-- False negatives, precision, recall and F1 (`evaluator.py` 484-489, `computation.py` 534-567), average
precision and the interpolated curve (`computation.py` 577-612), average recall (570-574). -/
def summarize (n : Int → Nat) (nLabels nIous : Nat) (a : Arrays) : Summary :=
  let pr := fun i j l => Verif.Detection.precision (a.tp i j l) (a.fp i j l)
  let rc := fun i j l => Verif.Detection.recall (a.tp i j l) (n l)
  let ap := fun i l => averagePrecision (a.curve.prec i l)
  let ar := fun j l => npMean ((List.range nIous).map (fun i => some (rc i j l)))
  { tp := a.tp, fp := a.fp, fn := fun i j l => (n l + 2 ^ 64 - a.tp i j l) % 2 ^ 64
    precision := pr, recall := rc, f1 := fun i j l => Verif.Detection.f1 (pr i j l) (rc i j l)
    ap := ap
    mAP := fun i => if nIous * nLabels > 0 then npMean ((List.range nLabels).map (fun (l : Nat) => some (ap i (l : Int)))) else some 0
    ar := ar
    mAR := fun j => npMean ((List.range nLabels).map (fun (l : Nat) => ar j (l : Int)))
    curvePrec := fun i l => interpolated (a.curve.prec i l)
    curveScore := fun i l => interpolated (a.curve.score i l) }

/-- The lists of `unpack_precision_recall_into_metric_lists` (`utilities.py` 10-150), in their order. -/
structure Report where
  ap : List DMetric
  mAP : List DMetric
  apOverIous : List DMetric
  mAPOverIous : List DMetric
  ar : List DMetric
  mAR : List DMetric
  arOverScores : List DMetric
  mAROverScores : List DMetric
  prCurve : List DMetric
  counts : List DMetric
  precision : List DMetric
  recall : List DMetric
  f1 : List DMetric
deriving DecidableEq, Repr

/-- `[f(idx, x) for idx, x in enumerate(l)]`. -/
def enum {α β : Type} (l : List α) (f : Nat → α → β) : List β := l.mapIdx f

/-- `unpack_precision_recall_into_metric_lists` (`utilities.py` 10-150). -/
def unpackMetrics (s : Summary) (ious scores : List Rat) (labels : List (Nat × String)) : Report :=
  let per := fun (f : Nat → Nat → Int → String → Rat → Rat → DMetric) =>
    (labels.map (fun lb => (enum scores (fun j sc => enum ious (fun i t => f i j (lb.1 : Int) lb.2 t sc))).flatten)).flatten
  { ap := (enum ious (fun i t => labels.map (fun lb => .ap (some (s.ap i (lb.1 : Int))) t lb.2))).flatten
    mAP := enum ious (fun i t => .mAP (s.mAP i) t)
    apOverIous := labels.map (fun lb => .apOverIous (npMean ((List.range ious.length).map (fun i => some (s.ap i (lb.1 : Int))))) ious lb.2)
    mAPOverIous := [.mAPOverIous (npMean ((List.range ious.length).map s.mAP)) ious]
    ar := (enum scores (fun j sc => labels.map (fun lb => .ar (s.ar j (lb.1 : Int)) ious sc lb.2))).flatten
    mAR := enum scores (fun j sc => .mAR (s.mAR j) ious sc)
    arOverScores := labels.map (fun lb => .arOverScores (npMean ((List.range scores.length).map (fun j => s.ar j (lb.1 : Int)))) scores ious lb.2)
    mAROverScores := [.mAROverScores (npMean ((List.range scores.length).map s.mAR)) scores ious]
    prCurve := (enum ious (fun i t => labels.map (fun lb => .prCurve (s.curvePrec i (lb.1 : Int)) (s.curveScore i (lb.1 : Int)) t lb.2))).flatten
    counts := per (fun i j l label t sc => .counts (s.tp i j l) (s.fp i j l) (s.fn i j l) label t sc)
    precision := per (fun i j l label t sc => .precision (s.precision i j l) label t sc)
    recall := per (fun i j l label t sc => .recall (s.recall i j l) label t sc)
    f1 := per (fun i j l label t sc => .f1 (s.f1 i j l) label t sc) }

/-- `Evaluator.compute_precision_recall` (`evaluator.py` 415-510). `tables` are the tables of the detailed
cache and `chunks` those of the ranked cache, both after the datum filter; `labels` are the items of
`index_to_label`. A label id of a ground truth outside the arrays raises (`shared.py` 204; a negative one
would wrap around, but rows with a ground truth carry its label), and so does a label id in
`index_to_label`. -/
def computePrecisionRecall (order : List Rat → List Nat) (labels : List (Nat × String)) (tables : List (List Row))
    (chunks : List (List RRow)) (ious scores : List Rat) : Except MErr Report :=
  if ious.isEmpty then .error .valueError
  else if scores.isEmpty then .error .valueError
  else if tables.flatten.any (fun r => decide (r.gt ≥ 0) && (decide (r.gl < 0) || decide (r.gl ≥ (labels.length : Int)))) then
    .error .indexError
  else do
    let a ← accumulate (gtCount tables) labels.length order ious scores chunks
    if labels.any (fun lb => decide (lb.1 ≥ labels.length)) then .error .indexError
    else .ok (unpackMetrics (summarize (gtCount tables) labels.length ious.length a) ious scores labels)

end Verif.Detection
