import Mathlib.Data.List.Sort
import Verif.Cache.Sort
import Verif.Classification.Counts
import Verif.Detection.Iou

/-!
# Ranking (`object_detection/computation.py` 179-329)
-/

namespace Verif.Detection

open Verif.Classification (isclose unique)

/-- The numeric columns of the detailed cache (`shared.py` 42-58). Ids are integers (the code converts
them to float and back), IoU and score exact rationals. -/
structure Row where
  datum : Int
  gt : Int
  pd : Int
  gl : Int
  pl : Int
  iou : Rat
  score : Rat
deriving DecidableEq, Repr

/-- The sort arguments `pd_score` descending, `iou` descending (`computation.py` 307-310), see
`Verif.Cache.sortArgs`. -/
def rankKey (r : Row) : List Rat := [-r.score, -r.iou]

/-- `np.lexsort((-iou, -score))` (`computation.py` 228-233): a stable sort, the last key is the primary. -/
def lexsort {α : Type} (key : α → List Rat) (l : List α) : List α :=
  l.insertionSort (fun a b => key a ≤ key b)

/-- `np.unique(keys, axis=0, return_index=True)` followed by taking the indices (`computation.py`
221-225): the first row of each key, in ascending order of keys. -/
def uniqueFirst {α : Type} (key : α → List Int) (l : List α) : List α :=
  ((l.map key).dedup.insertionSort (· ≤ ·)).filterMap (fun k => l.find? (fun r => decide (key r = k)))

/-- `np.isclose(pairs[:, 3], pairs[:, 4])` (`computation.py` 213, 404, 741). -/
def labelMatch (r : Row) : Bool := isclose r.gl r.pl

/-- The columns `(datum_id, pd_id, pd_label_id)` (`computation.py` 223). -/
def pdKey (r : Row) : List Int := [r.datum, r.pd, r.pl]

/-- `rank_pairs` (`computation.py` 179-238). The returned indices select the same rows from the sorted
table. -/
def rankPairs (sorted : List Row) : List Row :=
  let pairs := sorted.filter (fun r => decide (r.pd ≥ 0))
  let matched := unique ((pairs.filter labelMatch).map Row.pd)
  let pairs := pairs.filter (fun r => labelMatch r || !matched.contains r.pd)
  lexsort rankKey (uniqueFirst pdKey pairs)

/-- The columns `(datum_id, gt_id, gt_label_id)` (`computation.py` 265). -/
def gtKey (r : Row) : List Int := [r.datum, r.gt, r.gl]

/-- `np.maximum.accumulate` (`computation.py` 283). -/
def runningMax : Option Rat → List Rat → List Rat
  | _, [] => []
  | none, x :: xs => x :: runningMax (some x) xs
  | some m, x :: xs => max m x :: runningMax (some (max m x)) xs

/-- `mask_rmax` (`computation.py` 284-285): close to the running maximum and, except for the first,
greater than the running maximum before. -/
def recordMask (ious : List Rat) : List Bool :=
  let rm := runningMax none ious
  let first := List.zipWith isclose rm ious
  let incr := true :: List.zipWith (fun a b => decide (a > b)) rm.tail rm
  List.zipWith (· && ·) first incr

/-- `b[i] = v` for each pair of an index list and a value list. -/
def assign (b : List Rat) (iv : List (Nat × Rat)) : List Rat := iv.foldl (fun b x => b.set x.1 x.2) b

/-- The IoU of row `i`. -/
def iouAt (rows : List Row) (i : Nat) : Rat := ((rows.map Row.iou)[i]?).getD 0

/-- `mask_gt` (`computation.py` 277-278) as a list of indices. -/
def gtIndices (rows : List Row) (k : List Int) : List Nat :=
  (List.range rows.length).filter (fun i => (rows[i]?).any (fun r => decide (gtKey r = k) && decide (r.gl = r.pl)))

/-- The body of the loop over ground truths (`computation.py` 276-291). -/
def boundaryStep (rows : List Row) (b : List Rat) (k : List Int) : List Rat :=
  let idx := gtIndices rows k
  if idx.length ≤ 1 then assign b (idx.map (fun i => (i, 0)))
  else
    let mask := recordMask (idx.map (iouAt rows))
    let kept := ((idx.zip mask).filter Prod.snd).map Prod.fst
    assign (assign b ((kept.take 1).map (fun i => (i, 0)))) (kept.tail.zip (kept.map (iouAt rows)))

/-- `calculate_ranking_boundaries` (`computation.py` 241-293). -/
def boundaries (rows : List Row) : List Rat :=
  let gts := ((rows.filter (fun r => decide (r.gt ≥ 0))).map gtKey).dedup.insertionSort (· ≤ ·)
  gts.foldl (boundaryStep rows) (List.replicate rows.length 2)

/-- A row of the ranked cache: the numeric columns and `iou_prev`. -/
structure RRow where
  row : Row
  prev : Rat
deriving DecidableEq, Repr

/-- `rank_table` (`computation.py` 296-329). -/
def rankTable (tbl : List Row) : List RRow :=
  let ranked := rankPairs (Verif.Cache.sortBy rankKey tbl)
  List.zipWith RRow.mk ranked (boundaries ranked)

end Verif.Detection
