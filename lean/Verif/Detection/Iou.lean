import Mathlib.Data.Rat.Defs
import Mathlib.Algebra.Order.Ring.Unbundled.Rat

/-!
# Intersection over union (`object_detection/computation.py` 8-126)

Coordinates are exact rationals instead of floats. The functions work row by row on an array of pairs;
one row is modelled. `compute_polygon_iou` (129-176) calls shapely; see `Verif.Detection.AddData`.
-/

namespace Verif.Detection

/-- `EPSILON` (`computation.py` 8). -/
def EPSILON : Rat := 1 / 1000000000

/-- `BoundingBox.extrema` (`annotation.py` 67-78). `__post_init__` (57-65) does not relate the
coordinates. -/
structure Box where
  xmin : Rat
  xmax : Rat
  ymin : Rat
  ymax : Rat
deriving DecidableEq, Repr

/-- `compute_bbox_iou` (`computation.py` 11-79), one pair. -/
def bboxIou (a b : Box) : Rat :=
  let xmin := max a.xmin b.xmin
  let ymin := max a.ymin b.ymin
  let xmax := min a.xmax b.xmax
  let ymax := min a.ymax b.ymax
  let width := max 0 (xmax - xmin)
  let height := max 0 (ymax - ymin)
  let inter := width * height
  let area1 := (a.xmax - a.xmin) * (a.ymax - a.ymin)
  let area2 := (b.xmax - b.xmin) * (b.ymax - b.ymin)
  let union := area1 + area2 - inter
  if union ≥ EPSILON then inter / union else 0

/-- `m.sum()` of a boolean array. -/
def popcount (m : List Bool) : Nat := m.countP id

/-- `compute_bitmask_iou` (`computation.py` 82-126), one pair of masks, flattened row by row
(`reshape(n_pairs, -1)`). Both masks have the same shape. -/
def bitmaskIou (a b : List Bool) : Rat :=
  let inter := popcount (List.zipWith (· && ·) a b)
  let union : Rat := (popcount a : Rat) + popcount b - inter
  if union ≥ EPSILON then (inter : Rat) / union else 0

end Verif.Detection
