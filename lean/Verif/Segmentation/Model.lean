import Verif.Segmentation.Mask
import Verif.Classification.Counts
import Verif.Classification.Loader
import Verif.Shared.Labels
import Mathlib.Data.Rat.Defs
import Mathlib.Algebra.Order.Field.Rat

/-!
# Segmentation: counting, loader, evaluator
(`semantic_segmentation/computation.py`, `loader.py`, `evaluator.py`, `shared.py`, `utilities.py`)

A matrix is a function of its two indices. `uint64` arithmetic is modulo 2^64; floating point results are
exact rationals.
-/

namespace Verif.Segmentation

open Verif.Classification (addLabel unique)
open Verif.Shared (LabelRow labelsOf)

/-- Conversion of an integer to `uint64`. -/
def u64 (x : Int) : Nat := (x % 2 ^ 64).toNat

/-! ## `compute_intermediates` -/

/-- The last position of a value (NumPy assignment with a repeated index keeps the last value). -/
def lastIdx (ls : List Nat) (v : Nat) : Option Nat :=
  if v ∈ ls then some (ls.length - 1 - ls.reverse.idxOf v) else none

/-- `intersection_counts` (`computation.py` 41-44). -/
def intersection (gts pds : List Mask) (a b : Nat) : Nat := (maskAnd (gts.getD a []) (pds.getD b [])).count true

/-- `background_counts` (`computation.py` 37-39); `size` is the length of the flattened masks. -/
def background (size : Nat) (gts pds : List Mask) : Nat :=
  (List.range size).countP (fun x => !((gts.any (fun m => bit m x)) || (pds.any (fun m => bit m x))))

/-- `groundtruth_counts - intersected_groundtruth_counts` (`computation.py` 34, 45, 56-58): `int64`. -/
def unmatchedGt (gts pds : List Mask) (a : Nat) : Int :=
  ((gts.getD a []).count true : Int) - (((List.range pds.length).map (fun b => intersection gts pds a b)).sum : Nat)

/-- `prediction_counts - intersected_prediction_counts` (`computation.py` 35, 46, 53-55). -/
def unmatchedPd (gts pds : List Mask) (b : Nat) : Int :=
  ((pds.getD b []).count true : Int) - (((List.range gts.length).map (fun a => intersection gts pds a b)).sum : Nat)

/-- `compute_intermediates` (`computation.py` 5-59). The indices of the labels are below `n_labels`, so the
assignments stay within the matrix. -/
def computeIntermediates (size : Nat) (gts pds : List Mask) (gl pl : List Nat) : Nat → Nat → Nat
  | 0, 0 => background size gts pds
  | 0, j + 1 => match lastIdx pl j with
    | some b => u64 (unmatchedPd gts pds b)
    | none => 0
  | i + 1, 0 => match lastIdx gl i with
    | some a => u64 (unmatchedGt gts pds a)
    | none => 0
  | i + 1, j + 1 => match lastIdx gl i, lastIdx pl j with
    | some a, some b => intersection gts pds a b
    | _, _ => 0

/-! ## Loader -/

/-- A bitmask as the loader sees it. -/
structure Item where
  mask : Mask
  label : String
  info : Option String := none
deriving DecidableEq

/-- `Segmentation` (`annotation.py` 75-80) after `__post_init__`; `size` is the number of pixels. -/
structure Seg where
  uid : String
  size : Nat
  gts : List Item
  pds : List Item
  info : Option String := none
deriving DecidableEq

/-- The segmentation that the constructor makes of bitmasks in the heap. -/
def segOf (uid : String) (shape : List Int) (h : Heap) (gts pds : List Bitmask) (info : Option String) : Except SegErr Seg :=
  match (postInit shape h gts pds).2 with
  | .error e => .error e
  | .ok _ =>
    let h' := (postInit shape h gts pds).1
    .ok ⟨uid, sizeOf2 shape, gts.map (fun b => ⟨(h' b.addr).data, b.label, b.info⟩), pds.map (fun b => ⟨(h' b.addr).data, b.label, b.info⟩), info⟩

/-- A row of the cache (`shared.py` 38-49). `info` are the metadata dictionaries merged into the row, in order
of increasing precedence. -/
structure SRow where
  datum : Int
  gl : Int
  pl : Int
  count : Nat
  datumUid : String
  gtLabel : Option String
  pdLabel : Option String
  info : List String
deriving DecidableEq

/-- `_add_label` (`loader.py` 27-33) for a list of labels (57-66): the labels and the index of each. -/
def addLabels (ls : List String) : List String → List String × List Nat
  | [] => (ls, [])
  | v :: vs =>
    let a := addLabel ls v
    let r := addLabels a.1 vs
    (r.1, a.2 :: r.2)

/-- The stacked masks (`loader.py` 68-94): one empty mask if there are none. -/
def combined (size : Nat) (items : List Item) : List Mask :=
  if items.length ≠ 0 then items.map Item.mask else [List.replicate size false]

/-- `gt_metadata.get(idx, {})` / `pd_metadata.get(idx, {})` (`loader.py` 109-118): the last item with that label
and metadata. -/
def infoOf (L : List String) (items : List Item) (idx : Nat) : List String :=
  (((items.filter (fun x => decide (L.idxOf x.label = idx) && x.info.isSome)).getLast?).bind Item.info).toList

/-- Row of an intersection (`loader.py` 128-146). -/
def pairRow (s : Seg) (k : Nat) (L : List String) (c : Nat → Nat → Nat) (i j : Nat) : SRow :=
  ⟨k, i, j, c (i + 1) (j + 1), s.uid, L[i]?, L[j]?, s.info.toList ++ infoOf L s.gts i ++ infoOf L s.pds j⟩

/-- Row of unmatched ground truth pixels (`loader.py` 150-165). -/
def gtRow (s : Seg) (k : Nat) (L : List String) (c : Nat → Nat → Nat) (i : Nat) : SRow :=
  ⟨k, i, -1, c (i + 1) 0, s.uid, L[i]?, none, s.info.toList ++ infoOf L s.gts i⟩

/-- Row of unmatched prediction pixels (`loader.py` 166-182). The metadata of the ground truth with the same
label is merged in as well (169). -/
def pdRow (s : Seg) (k : Nat) (L : List String) (c : Nat → Nat → Nat) (i : Nat) : SRow :=
  ⟨k, -1, i, c 0 (i + 1), s.uid, none, L[i]?, s.info.toList ++ infoOf L s.gts i ++ infoOf L s.pds i⟩

/-- Background row (`loader.py` 185-201). -/
def backgroundRow (s : Seg) (k : Nat) (c : Nat → Nat → Nat) : SRow :=
  ⟨k, -1, -1, c 0 0, s.uid, none, none, s.info.toList⟩

/-- The rows of one segmentation (`loader.py` 120-201). -/
def segRows (s : Seg) (k : Nat) (L : List String) (c : Nat → Nat → Nat) : List SRow :=
  (List.range L.length).flatMap (fun i =>
    ((List.range L.length).filter (fun j => decide (c (i + 1) (j + 1) > 0))).map (fun j => pairRow s k L c i j)
      ++ [gtRow s k L c i, pdRow s k L c i])
    ++ [backgroundRow s k c]

/-- `Loader` state (`loader.py` 22-25). `rows` has one inner list per `write_rows` call. -/
structure Loader where
  labels : List String
  datums : Nat
  rows : List (List SRow)

/-- A fresh loader. -/
def Loader.init : Loader := ⟨[], 0, []⟩

/-- One iteration of `add_data` (`loader.py` 52-205). -/
def Loader.addOne (l : Loader) (s : Seg) : Loader :=
  let g := addLabels l.labels (s.gts.map Item.label)
  let p := addLabels g.1 (s.pds.map Item.label)
  let c := computeIntermediates s.size (combined s.size s.gts) (combined s.size s.pds) g.2 p.2
  ⟨p.1, l.datums + 1, l.rows ++ [segRows s l.datums p.1 c]⟩

/-- `add_data` (`loader.py` 35-205). -/
def Loader.addData (l : Loader) (ss : List Seg) : Loader := ss.foldl Loader.addOne l

/-- A sequence of `add_data` calls. -/
def Loader.addAll (l : Loader) (calls : List (List Seg)) : Loader := calls.foldl Loader.addData l

/-! ## Evaluator -/

/-- A filter expression over the columns of the cache; a null result is `false`. -/
abbrev Expr := SRow → Bool

/-- A table as yielded by `iterate_tables(filter=..)`. -/
def readTable (d : Option Expr) (tbl : List SRow) : List SRow :=
  match d with
  | none => tbl
  | some e => tbl.filter e

/-- Whether an id belongs to index `k` of the matrix: index 0 stands for the id −1 (`evaluator.py` 368-369,
374, 376, 385). -/
def isSide : Nat → Int → Bool
  | 0, id => decide (id = -1)
  | k + 1, id => decide (id = (k : Int))

/-- `counts[mask].sum()` (`evaluator.py` 370-388). -/
def tableEntry (tbl : List SRow) (i j : Nat) : Nat :=
  u64 (((tbl.filter (fun r => isSide i r.gl && isSide j r.pl)).map SRow.count).sum : Nat)

/-- `_compute_confusion_matrix_intermediate` (`evaluator.py` 337-389) with `n` labels. -/
def confusionMatrix (n : Nat) (d : Option Expr) (tables : List (List SRow)) (i j : Nat) : Nat :=
  if i ≤ n ∧ j ≤ n then tables.foldl (fun acc tbl => u64 ((acc + tableEntry (readTable d tbl) i j : Nat) : Int)) 0 else 0

/-- `mask_valid_gt` / `mask_valid_pd` of `filter` (`evaluator.py` 294-320). -/
def validMask (e : Option Expr) (f : SRow → Int × Int) (tbl : List SRow) (r : SRow) : Bool :=
  match e with
  | none => true
  | some e => (unique ((tbl.filter e).map f)).any (fun x => decide (x = f r))

/-- The body of the loop of `filter` (`evaluator.py` 282-333), for a table already filtered by `datums`. Text and
metadata columns keep their values. -/
def filterTable (g p : Option Expr) (tbl : List SRow) : List SRow :=
  let mg := validMask g (fun r => (r.datum, r.gl)) tbl
  let mp := validMask p (fun r => (r.datum, r.pl)) tbl
  tbl.map (fun r =>
    let valid := mg r || mp r
    { r with gl := if mg r && valid then r.gl else -1, pl := if mp r && valid then r.pl else -1 })

/-- The rows written by `filter` (`evaluator.py` 282-333), one list per source table. -/
def filterTables (d g p : Option Expr) (tables : List (List SRow)) : List (List SRow) :=
  tables.map (fun t => filterTable g p (readTable d t))

/-- `EmptyCacheError`. -/
inductive FinErr
  | empty
deriving DecidableEq

/-- The label columns of a row. A missing text is the empty string. -/
def labelCols (r : SRow) : LabelRow := ((r.gl, r.gtLabel.getD ""), (r.pl, r.pdLabel.getD ""))

/-- An evaluator (`evaluator.py` 154-162). -/
structure Evaluator where
  tables : List (List SRow)
  labels : List (Int × String)

/-- `finalize` (`evaluator.py` 117-150) for a cache with the given tables. -/
def finalize (tables : List (List SRow)) (override : Option (List (Int × String))) : Except FinErr Evaluator :=
  if tables.flatten.length = 0 then .error .empty
  else .ok ⟨tables, labelsOf (tables.map (fun t => t.map labelCols)) override⟩

/-- `extract_counts` (`shared.py` 118-149): datums, pixels, ground truth pixels, prediction pixels. -/
def extractCounts (d g p : Option Expr) (tables : List (List SRow)) : Nat × Nat × Nat × Nat :=
  let ts := tables.map (readTable d)
  ((ts.map (fun t => (unique (t.map SRow.datum)).length)).sum,
   (ts.map (fun t => u64 ((t.map SRow.count).sum : Nat))).sum,
   (ts.map (fun t => u64 (((readTable g t).filter (fun r => decide (r.gl ≥ 0))).map SRow.count).sum)).sum,
   (ts.map (fun t => u64 (((readTable p t).filter (fun r => decide (r.pl ≥ 0))).map SRow.count).sum)).sum)

/-! ## `compute_metrics` (`computation.py` 62-165) -/

/-- `gt_counts` (`computation.py` 100). -/
def gtCounts (n : Nat) (m : Nat → Nat → Nat) (i : Nat) : Nat := u64 (((List.range (n + 1)).map (fun j => m (i + 1) j)).sum : Nat)

/-- `pd_counts` (`computation.py` 101). -/
def pdCounts (n : Nat) (m : Nat → Nat → Nat) (j : Nat) : Nat := u64 (((List.range (n + 1)).map (fun i => m i (j + 1))).sum : Nat)

/-- `n_pixels` (`computation.py` 99). -/
def nPixels (n : Nat) (m : Nat → Nat → Nat) : Nat :=
  u64 (((List.range (n + 1)).map (fun i => ((List.range (n + 1)).map (fun j => m i j)).sum)).sum : Nat)

/-- `np.divide(a, b, where=b > 1e-9, out=zeros)`. -/
def divide (a b : Nat) : Rat := if (b : Rat) > 1 / 1000000000 then (a : Rat) / (b : Rat) else 0

/-- `ious` (`computation.py` 104-115). -/
def iou (n : Nat) (m : Nat → Nat → Nat) (i j : Nat) : Rat :=
  divide (m (i + 1) (j + 1)) (u64 ((gtCounts n m i + pdCounts n m j : Nat) - (m (i + 1) (j + 1) : Nat) : Int))

/-- `unmatched_prediction_ratio` (`computation.py` 117-123). -/
def unmatchedPrediction (n : Nat) (m : Nat → Nat → Nat) (j : Nat) : Rat := divide (m 0 (j + 1)) (pdCounts n m j)

/-- `unmatched_ground_truth_ratio` (`computation.py` 125-131). -/
def unmatchedGroundtruth (n : Nat) (m : Nat → Nat → Nat) (i : Nat) : Rat := divide (m (i + 1) 0) (gtCounts n m i)

/-- `precision` (`computation.py` 134-137). -/
def precision (n : Nat) (m : Nat → Nat → Nat) (i : Nat) : Rat := divide (m (i + 1) (i + 1)) (pdCounts n m i)

/-- `recall` (`computation.py` 139-140). -/
def recall (n : Nat) (m : Nat → Nat → Nat) (i : Nat) : Rat := divide (m (i + 1) (i + 1)) (gtCounts n m i)

/-- `f1_score` (`computation.py` 142-148). -/
def f1 (n : Nat) (m : Nat → Nat → Nat) (i : Nat) : Rat :=
  if precision n m i + recall n m i > 0 then 2 * (precision n m i * recall n m i) / (precision n m i + recall n m i) else 0

/-- `accuracy` (`computation.py` 151-155). -/
def accuracy (n : Nat) (m : Nat → Nat → Nat) : Rat :=
  let tp := u64 (((List.range n).map (fun i => m (i + 1) (i + 1))).sum : Nat)
  if nPixels n m > 0 then (u64 ((tp + m 0 0 : Nat) : Int) : Rat) / (nPixels n m : Rat) else 0

/-- `ious.diagonal().mean()` (`utilities.py` 56-60); `none` is NaN. -/
def meanIou (n : Nat) (m : Nat → Nat → Nat) : Option Rat :=
  if n = 0 then none else some (((List.range n).map (fun i => iou n m i i)).sum / (n : Rat))

end Verif.Segmentation
