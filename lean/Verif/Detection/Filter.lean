import Verif.Detection.Loader
import Verif.Detection.Counts
import Verif.Shared.Labels

/-!
# Filtering, finalizing and counting annotations
(`object_detection/evaluator.py` 168-210, 292-413, `object_detection/shared.py` 128-185)
-/

namespace Verif.Detection

open Verif.Classification (unique)
open Verif.Shared (LabelRow labelsOf)

/-- A filter expression over the columns of the detailed cache: whether a row satisfies it. (pyarrow drops
rows for which the expression is null; that is `false` here.) -/
abbrev Expr := FRow → Bool

/-- `(datum_id, gt_id, gt_label_id)` (`evaluator.py` 354). -/
def gtCols (r : FRow) : Int × Int × Int := (r.row.datum, r.row.gt, r.row.gl)

/-- `(datum_id, pd_id, pd_label_id)` (`evaluator.py` 355). -/
def pdCols (r : FRow) : Int × Int × Int := (r.row.datum, r.row.pd, r.row.pl)

/-- `mask_valid_gt` / `mask_valid_pd` (`evaluator.py` 359-387): all ones without an expression, otherwise
the rows whose key occurs among the rows satisfying the expression. -/
def validMask (e : Option Expr) (f : FRow → Int × Int × Int) (tbl : List FRow) (r : FRow) : Bool :=
  match e with
  | none => true
  | some e => (unique ((tbl.filter e).map f)).any (fun x => decide (x = f r))

/-- The rewritten numeric columns (`evaluator.py` 389-409). The text and metadata columns keep their
values. -/
def clear (vg vp : Bool) (r : FRow) : FRow :=
  { r with row :=
    { datum := r.row.datum
      gt := if vg then r.row.gt else -1
      pd := if vp then r.row.pd else -1
      gl := if vg then r.row.gl else -1
      pl := if vp then r.row.pl else -1
      iou := if !vp || !vg then 0 else r.row.iou
      score := if vp then r.row.score else -1 } }

/-- The body of the loop of `filter` (`evaluator.py` 342-413), for a table already filtered by `datums`. -/
def filterTable (g p : Option Expr) (tbl : List FRow) : List FRow :=
  let mg := validMask g gtCols tbl
  let mp := validMask p pdCols tbl
  (tbl.filter (fun r =>
    let valid := mg r || mp r
    let r' := clear (mg r && valid) (mp r && valid) r
    !(!valid || (decide (r'.row.gt < 0) && decide (r'.row.pd < 0))))).map
    (fun r => clear (mg r && (mg r || mp r)) (mp r && (mg r || mp r)) r)

/-- A table as yielded by `iterate_tables(filter=..)`. -/
def readTable (d : Option Expr) (tbl : List FRow) : List FRow :=
  match d with
  | none => tbl
  | some e => tbl.filter e

/-- The rows written by `filter` (`evaluator.py` 341-413), one list per source table. -/
def filterTables (d g p : Option Expr) (tables : List (List FRow)) : List (List FRow) :=
  tables.map (fun t => filterTable g p (readTable d t))

/-- Rows of a table that satisfy an optional expression (`shared.py` 172-175, 179-182). -/
def filterOpt (e : Option Expr) (tbl : List FRow) : List FRow := readTable e tbl

/-- `extract_counts` (`shared.py` 160-185): numbers of datums, ground truths and predictions. -/
def extractCounts (d g p : Option Expr) (tables : List (List FRow)) : Nat × Nat × Nat :=
  let ts := tables.map (readTable d)
  ((ts.map (fun t => (unique (t.map (fun r => r.row.datum))).length)).sum,
   (ts.map (fun t => (unique (((filterOpt g t).map (fun r => r.row.gt)).filter (fun i => decide (i ≥ 0)))).length)).sum,
   (ts.map (fun t => (unique (((filterOpt p t).map (fun r => r.row.pd)).filter (fun i => decide (i ≥ 0)))).length)).sum)

/-! ## `finalize` -/

/-- The label columns of a row. A missing text is the empty string. -/
def labelCols (r : FRow) : LabelRow := ((r.row.gl, r.gtLabel.getD ""), (r.row.pl, r.pdLabel.getD ""))

/-- The caches of a builder (`evaluator.py` 49-58): detailed and ranked cache as the tables that their
readers yield. -/
structure Builder where
  tables : List (List FRow)
  ranked : List (List RRow)

/-- What `finalize` hands to the evaluator (`evaluator.py` 205-210). -/
structure EvalState where
  tables : List (List FRow)
  ranked : List (List RRow)
  labels : List (Int × String)

/-- `EmptyCacheError`. -/
inductive FinErr
  | empty
deriving DecidableEq

/-- How the ranked cache takes up the rows of a sort: the file cache closes a file at each flush, so
that the new rows come in new files (`persistent.py` 499-520); the memory cache appends to its one table
(`ephemeral.py` 261-273). -/
inductive Backend
  | file
  | memory

/-- New content of the ranked cache. -/
def Backend.append : Backend → List (List RRow) → List (List RRow) → List (List RRow)
  | .file, old, new => old ++ new
  | .memory, old, new => [old.flatten ++ new.flatten]

/-- `finalize` (`evaluator.py` 168-210). The outcome of the local sort of the detailed cache (`sorted`) and
the ranked rows written by the merge sort (`new`, modelled in `Verif.Cache.Sort`; see `RankedOf`) are
arguments. -/
def Builder.finalize (b : Builder) (k : Backend) (sorted : List (List FRow)) (new : List (List RRow))
    (override : Option (List (Int × String))) : Except FinErr (Builder × EvalState) :=
  if b.tables.flatten.length = 0 then .error .empty
  else
    let labels := labelsOf (sorted.map (fun t => t.map labelCols)) override
    let ranked := k.append b.ranked new
    .ok (⟨sorted, ranked⟩, ⟨sorted, ranked, labels⟩)

end Verif.Detection
