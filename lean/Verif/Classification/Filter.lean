import Verif.Classification.Roc
import Verif.Shared.Labels

/-!
# Finalizing and filtering (`classification/evaluator.py` 261-318, 404-497)
-/

namespace Verif.Classification

open Verif.Shared

/-- A filter expression over the columns of the cache: whether a row satisfies it. (pyarrow drops rows
for which the expression is null; that is `false` here.) -/
abbrev Expr := Row → Bool

/-- `mask_valid_gt` / `mask_valid_pd` (`evaluator.py` 462-488): all ones without an expression,
otherwise the rows whose (datum, id) pair occurs among the rows satisfying the expression. -/
def sideMask (e : Option Expr) (f : Row → Int) (tbl : List Row) (r : Row) : Bool :=
  match e with
  | none => true
  | some e => (unique ((tbl.filter e).map (fun x => (x.datum, f x)))).any (fun x => decide (x = (r.datum, f r)))

/-- The body of the loop of `filter` (`evaluator.py` 451-494), for a table already filtered by `datums`. -/
def filterTable (g p : Option Expr) (tbl : List Row) : List Row :=
  tbl.filter (fun r => sideMask g Row.gt tbl r && sideMask p Row.pd tbl r)

/-- A table as yielded by `iterate_tables(filter=..)`. -/
def readTable (d : Option Expr) (tbl : List Row) : List Row :=
  match d with
  | none => tbl
  | some e => tbl.filter e

/-- The rows written by `filter` (`evaluator.py` 450-495), one list per source table. -/
def filterTables (d g p : Option Expr) (tables : List (List Row)) : List (List Row) :=
  tables.map (fun t => filterTable g p (readTable d t))

/-- Exceptions of `finalize` (`evaluator.py` 281-284). -/
inductive FinErr
  | empty
  | already
deriving DecidableEq

/-- The caches of a builder (`evaluator.py` 55-66): the main cache as the tables its reader would
yield, and the ROC curve cache. -/
structure Builder where
  tables : List (List Row)
  roc : List RocRow

/-- What `finalize` hands to the evaluator (`evaluator.py` 312-318). -/
structure EvalState where
  tables : List (List Row)
  roc : List RocRow
  labels : List (Int × String)

/-- The label columns of a row. -/
def labelCols (r : Row) : LabelRow := ((r.gt, r.gtLabel), (r.pd, r.pdLabel))

/-- `finalize` (`evaluator.py` 261-318). The outcome of the local sort of the main cache (`sorted`) and
of the merge sort of the intermediate cache (`inter`, modelled in `Verif.Cache.Sort`) are arguments.
Keys of the label dictionary are non-negative. -/
def Builder.finalize (b : Builder) (sorted : List (List Row)) (inter : List (List IRow))
    (override : Option (List (Int × String))) : Except FinErr (Builder × EvalState) :=
  if b.tables.flatten.length = 0 then .error .empty
  else if b.roc.length > 0 then .error .already
  else
    let labels := labelsOf (sorted.map (fun t => t.map labelCols)) override
    let roc := b.roc ++ rocCurve (labels.map (fun x => x.1.toNat)) labels.length inter
    .ok (⟨sorted, roc⟩, ⟨sorted, roc, labels⟩)

end Verif.Classification
