import Verif.Detection.Report

/-!
# The confusion matrices of all thresholds (`object_detection/computation.py` 644-887,
`object_detection/evaluator.py` 512-602, `object_detection/utilities.py` 153-189)

`Pairs` describes one pair of thresholds with masks. Here the loops are modelled with the flag array that they fill, the
arrays of counts and the dictionaries of the metric. Arrays are functions of their indices.
-/

namespace Verif.Detection

open Verif.Classification (unique)

/-! ## `compute_pair_classifications` -/

/-- `PairClassification.TP` (`computation.py` 644-649): `auto()` counts powers of two, `NULL` is 1. -/
def flagTp : BitVec 8 := 2#8

/-- `PairClassification.FP_FN_MISCLF`. -/
def flagMisclf : BitVec 8 := 4#8

/-- `PairClassification.FP_UNMATCHED`. -/
def flagFp : BitVec 8 := 8#8

/-- `PairClassification.FN_UNMATCHED`. -/
def flagFn : BitVec 8 := 16#8

/-- `pair_classifications` (`computation.py` 724-727): IoU index, score index, row. -/
abbrev Flags := Nat → Nat → Nat → BitVec 8

/-- `a[i, j, mask] |= flag` (`computation.py` 790-801). -/
def orAt (a : Flags) (i j : Nat) (mask : List Bool) (flag : BitVec 8) : Flags := fun i' j' k =>
  if i' = i ∧ j' = j ∧ mask.getD k false = true then a i' j' k ||| flag else a i' j' k

/-- The body of the loops (`computation.py` 751-801). -/
def classifyBody (rows : List Row) (ious scores : List Rat) (i : Nat) (a : Flags) (j : Nat) : Flags :=
  let t := ious.getD i 0
  let s := scores.getD j 0
  let a := orAt a i j (rows.map (pairTp rows t s)) flagTp
  let a := orAt a i j (rows.map (pairMisclf rows t s)) flagMisclf
  let a := orAt a i j (rows.map (pairFp rows t s)) flagFp
  orAt a i j (rows.map (pairFn rows t s)) flagFn

/-- The loops of `compute_pair_classifications` (`computation.py` 750-801). -/
def classify (rows : List Row) (ious scores : List Rat) : Flags :=
  (List.range ious.length).foldl (fun a i => (List.range scores.length).foldl (classifyBody rows ious scores i) a) (fun _ _ _ => 0#8)

/-- `np.bitwise_and(pair_classifications, flag) > 0` (`computation.py` 803-815) for one pair of thresholds. -/
def flagMask (a : Flags) (flag : BitVec 8) (i j n : Nat) : List Bool :=
  (List.range n).map (fun k => decide (a i j k &&& flag > 0#8))

/-! ## `compute_confusion_matrix` -/

/-- `confusion_matrices`, `unmatched_groundtruths`, `unmatched_predictions` (`computation.py` 840-846). -/
structure CmArr where
  cm : Nat → Nat → Nat → Nat → Nat
  gt : Nat → Nat → Nat → Nat
  pd : Nat → Nat → Nat → Nat

/-- Zero arrays. -/
def CmArr.zero : CmArr := ⟨fun _ _ _ _ => 0, fun _ _ _ => 0, fun _ _ _ => 0⟩

/-- An index into an axis of size `n`: negative indices count from the end. -/
def axisIndex (n : Nat) (z : Int) : Except MErr Nat :=
  if 0 ≤ z then (if z < (n : Int) then .ok z.toNat else .error .indexError)
  else if -(n : Int) ≤ z then .ok (z + (n : Int)).toNat else .error .indexError

/-- The rows that a mask selects. -/
def select (rows : List Row) (mask : List Bool) : List Row := ((rows.zip mask).filter Prod.snd).map Prod.fst

/-- `a[labels] = counts` for one axis (`computation.py` 868-873, 880-885). -/
def assign1 (n : Nat) (a : Nat → Nat) (labels : List Int) : Except MErr (Nat → Nat) :=
  (unique labels).foldlM (fun a l => (axisIndex n l).bind (fun i => .ok (put a i (labels.count l)))) a

/-- `a[labels[:, 0], labels[:, 1]] = counts` (`computation.py` 856-861). -/
def assign2 (n : Nat) (a : Nat → Nat → Nat) (labels : List (Int × Int)) : Except MErr (Nat → Nat → Nat) :=
  (unique labels).foldlM (fun a l => (axisIndex n l.1).bind (fun g => (axisIndex n l.2).bind (fun p =>
    .ok (put a g (put (a g) p (labels.count l)))))) a

/-- The body of the loops (`computation.py` 851-885). `np.unique(.., axis=0)` gives the distinct rows. A row is a list
of ids. -/
def cmBody (rows : List Row) (f : Flags) (n : Nat) (i : Nat) (a : CmArr) (j : Nat) : Except MErr CmArr :=
  let m := rows.length
  let matched := List.zipWith (· || ·) (flagMask f flagTp i j m) (flagMask f flagMisclf i j m)
  let pairs := unique ((select rows matched).map (fun r => [r.datum, r.gt, r.pd, r.gl, r.pl]))
  let gts := unique ((select rows (flagMask f flagFn i j m)).map (fun r => [r.datum, r.gt, r.gl]))
  let pds := unique ((select rows (flagMask f flagFp i j m)).map (fun r => [r.datum, r.pd, r.pl]))
  (assign2 n (a.cm i j) (pairs.map (fun k => (k.getD 3 0, k.getD 4 0)))).bind (fun cm =>
  (assign1 n (a.gt i j) (gts.map (fun k => k.getD 2 0))).bind (fun gt =>
  (assign1 n (a.pd i j) (pds.map (fun k => k.getD 2 0))).bind (fun pd =>
    .ok ⟨put a.cm i (put (a.cm i) j cm), put a.gt i (put (a.gt i) j gt), put a.pd i (put (a.pd i) j pd)⟩)))

/-- `compute_confusion_matrix` of `computation.py` (823-887) for the flags of a table. -/
def tableCm (rows : List Row) (ious scores : List Rat) (n : Nat) : Except MErr CmArr :=
  (List.range ious.length).foldlM (fun a i => (List.range scores.length).foldlM (cmBody rows (classify rows ious scores) n i) a) CmArr.zero

/-- The loop over the tables of the detailed cache (`evaluator.py` 552-593). -/
def accumulateCm (n : Nat) (ious scores : List Rat) (tables : List (List Row)) : Except MErr CmArr :=
  tables.foldlM (fun a rows => if rows.isEmpty then .ok a else
    (tableCm rows ious scores n).bind (fun b => .ok ⟨fun i j g p => a.cm i j g p + b.cm i j g p,
      fun i j l => a.gt i j l + b.gt i j l, fun i j l => a.pd i j l + b.pd i j l⟩)) CmArr.zero

/-! ## `unpack_confusion_matrix` -/

/-- `d[k] = v`. -/
def dput {α β : Type} [DecidableEq α] : List (α × β) → α → β → List (α × β)
  | [], k, v => [(k, v)]
  | (a, b) :: d, k, v => if a = k then (a, v) :: d else (a, b) :: dput d k v

/-- A confusion matrix metric (`metric.py` 565-633): matrix, unmatched ground truths, unmatched predictions and the
thresholds. -/
structure CmMetric where
  cm : List (String × List (String × Nat))
  gt : List (String × Nat)
  pd : List (String × Nat)
  iou : Rat
  score : Rat
deriving DecidableEq, Repr

/-- The body of the inner loop over the labels (`utilities.py` 175-179). The last line is
`cm_dict[label][plabel] = ...`. -/
def cellBody (a : Nat → Nat → Nat) (lb : Nat × String) (d : List (String × List (String × Nat))) (q : Nat × String) :
    List (String × List (String × Nat)) :=
  let d := if (d.map Prod.fst).contains lb.2 then d else dput d lb.2 []
  dput d lb.2 (dput ((d.lookup lb.2).getD []) q.2 (a lb.1 q.1))

/-- The body of the loop over the labels (`utilities.py` 168-179). -/
def labelCells (labels : List (Nat × String)) (cm : Nat → Nat → Nat) (gt pd : Nat → Nat) (d : CmMetric) (lb : Nat × String) : CmMetric :=
  { d with gt := dput d.gt lb.2 (gt lb.1), pd := dput d.pd lb.2 (pd lb.1), cm := labels.foldl (cellBody cm lb) d.cm }

/-- `unpack_confusion_matrix` (`utilities.py` 153-189). -/
def unpackMatrices (a : CmArr) (labels : List (Nat × String)) (ious scores : List Rat) : List CmMetric :=
  (enum ious (fun i t => enum scores (fun j s =>
    labels.foldl (labelCells labels (a.cm i j) (a.gt i j) (a.pd i j)) ⟨[], [], [], t, s⟩))).flatten

/-- `compute_confusion_matrix` of the evaluator (`evaluator.py` 512-602), after the datum filter of the reader. The labels
are `_index_to_label`; an id outside the arrays raises. -/
def computeConfusionMatrix (labels : List (Nat × String)) (tables : List (List Row)) (ious scores : List Rat) :
    Except MErr (List CmMetric) :=
  if ious.isEmpty then .error .valueError
  else if scores.isEmpty then .error .valueError
  else (accumulateCm labels.length ious scores tables).bind (fun a =>
    if labels.any (fun lb => decide (lb.1 ≥ labels.length)) then .error .indexError
    else .ok (unpackMatrices a labels ious scores))

end Verif.Detection
