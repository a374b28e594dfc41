import Verif.Detection.Iou
import Verif.Detection.Loader
import Verif.Detection.Report

/-!
# `add_bounding_boxes`, `add_polygons` and `add_bitmasks` (`object_detection/loader.py` 194-292)

From annotations with their shapes to the IoU matrices that `_add_data` gets. Coordinates and areas are exact rationals instead of floats.
-/

namespace Verif.Detection

/-- An annotation with its shape: `BoundingBox`, `Polygon` or `Bitmask` (`annotation.py` 10-193). -/
structure Shaped (S : Type) where
  ann : Ann
  shape : S

/-- `Detection` (`annotation.py` 200-238). -/
structure ShapedDet (S : Type) where
  uid : String
  gts : List (Shaped S)
  pds : List (Shaped S)
  info : String := ""

/-- The detection without the shapes. -/
def ShapedDet.det {S : Type} (d : ShapedDet S) : Det := ⟨d.uid, d.gts.map Shaped.ann, d.pds.map Shaped.ann, d.info⟩

/-- The list of pairs in the three methods (`loader.py` 213-215, 247-249, 280-282): predictions outside, ground truths inside. -/
def ShapedDet.pairs {S : Type} (d : ShapedDet S) : List (S × S) := d.pds.flatMap (fun p => d.gts.map (fun g => (g.shape, p.shape)))

/-- `.reshape(n, m)` of a flat array: it raises unless there are `n * m` entries; entry `[i, j]` is number `i * m + j`. -/
def reshape (xs : List Rat) (n m : Nat) : Except MErr (Nat → Nat → Rat) :=
  if xs.length = n * m then .ok (fun i j => xs.getD (i * m + j) 0) else .error .valueError

/-- `compute_bbox_iou` (`computation.py` 11-79), all pairs. -/
def computeBboxIou (data : List (Box × Box)) : Except MErr (List Rat) :=
  if data.isEmpty then .ok [] else .ok (data.map (fun x => bboxIou x.1 x.2))

/-- What `compute_polygon_iou` uses of shapely: `intersection` and `union` may raise (`GEOSException` for an invalid polygon), `area` does not. -/
structure Shapely where
  Polygon : Type
  Geometry : Type
  intersection : Polygon → Polygon → Except MErr Geometry
  union : Polygon → Polygon → Except MErr Geometry
  area : Geometry → Rat

/-- `compute_polygon_iou` (`computation.py` 129-176), all pairs: first all intersections, then all unions, then the division. -/
def computePolygonIou (lib : Shapely) (data : List (lib.Polygon × lib.Polygon)) : Except MErr (List Rat) :=
  if data.isEmpty then .ok []
  else do
    let inter ← data.mapM (fun x => lib.intersection x.1 x.2)
    let union ← data.mapM (fun x => lib.union x.1 x.2)
    .ok (List.zipWith (fun a b => if lib.area b ≥ EPSILON then lib.area a / lib.area b else 0) inter union)

/-- A two-dimensional mask (`Bitmask.mask`, `annotation.py` 169), with its pixels row by row. -/
structure Mask where
  height : Nat
  width : Nat
  data : List Bool
deriving DecidableEq

/-- `np.array` of the pairs of masks (`loader.py` 277-284) raises unless all shapes agree; then `compute_bitmask_iou` (`computation.py` 82-126).
A mask without pixels does not occur: `Bitmask.__post_init__` (`annotation.py` 182-183) requires one that is set. -/
def computeBitmaskIou (data : List (Mask × Mask)) : Except MErr (List Rat) :=
  match data with
  | [] => .ok []
  | first :: _ =>
    if data.all (fun x => decide (x.1.height = first.1.height ∧ x.1.width = first.1.width ∧ x.2.height = first.1.height ∧ x.2.width = first.1.width)) then
      .ok (data.map (fun x => bitmaskIou x.1.data x.2.data))
    else .error .valueError

/-- The matrix of one detection (`loader.py` 209-221, 243-254, 276-287). -/
def iouMatrix {S : Type} (compute : List (S × S) → Except MErr (List Rat)) (d : ShapedDet S) : Except MErr (Nat → Nat → Rat) := do
  let xs ← compute d.pairs
  reshape xs d.pds.length d.gts.length

/-- The three methods (`loader.py` 194-226, 228-259, 261-292): the matrices of all detections, then `_add_data`. -/
def Loader.addShapes {S : Type} (s : Loader) (compute : List (S × S) → Except MErr (List Rat)) (ds : List (ShapedDet S)) : Except MErr Loader := do
  let ious ← ds.mapM (iouMatrix compute)
  .ok (s.addData ((ds.map ShapedDet.det).zip ious))

/-- `add_bounding_boxes` (`loader.py` 194-226). -/
def Loader.addBoundingBoxes (s : Loader) (ds : List (ShapedDet Box)) : Except MErr Loader := s.addShapes computeBboxIou ds

/-- `add_polygons` (`loader.py` 228-259). -/
def Loader.addPolygons (lib : Shapely) (s : Loader) (ds : List (ShapedDet lib.Polygon)) : Except MErr Loader := s.addShapes (computePolygonIou lib) ds

/-- `add_bitmasks` (`loader.py` 261-292). -/
def Loader.addBitmasks (s : Loader) (ds : List (ShapedDet Mask)) : Except MErr Loader := s.addShapes computeBitmaskIou ds

end Verif.Detection
