import Verif.Detection.Pairs
import Verif.Detection.Filter
import Verif.Cache.Paginate

/-!
# Detection examples (`object_detection/utilities.py` 192-396, `object_detection/evaluator.py` 604-810)

A missing dictionary key raises `KeyError`; that is `none` here.
-/

namespace Verif.Detection

open Verif.Cache (paginate sortedUnique)

/-- `np.unique(rows, axis=0)`: the distinct rows in lexicographic order. -/
def uniqueRows (l : List (List Int)) : List (List Int) := l.dedup.insertionSort (· ≤ ·)

/-- `create_mapping` (`utilities.py` 192-204): the text of the first row of each id that is not negative. -/
def createMapping (tbl : List FRow) (col : Row → Int) (uid : FRow → Option String) : List (Int × Option String) :=
  (((tbl.map (fun f => col f.row)).dedup.insertionSort (· ≤ ·)).filter (fun v => decide (0 ≤ v))).filterMap
    (fun v => (tbl.find? (fun f => decide (col f.row = v))).map (fun f => (col f.row, uid f)))

/-- `index_to_datum_id` (`evaluator.py` 669-671). -/
def datumMap (tbl : List FRow) : List (Int × Option String) := createMapping tbl Row.datum (fun f => some f.datumUid)

/-- `index_to_groundtruth_id` (`evaluator.py` 672-674). -/
def gtMap (tbl : List FRow) : List (Int × Option String) := createMapping tbl Row.gt FRow.gtUid

/-- `index_to_prediction_id` (`evaluator.py` 675-677). -/
def pdMap (tbl : List FRow) : List (Int × Option String) := createMapping tbl Row.pd FRow.pdUid

/-- The value of an example metric (`Metric.examples`, `metric.py` 636-710). -/
structure DetExample where
  datum : Option String
  tp : List (Option String × Option String)
  fp : List (Option String)
  fn : List (Option String)
  iou : Rat
  score : Rat
deriving DecidableEq, Repr

/-- `unpack_examples` for one datum and one pair of thresholds (`utilities.py` 221-259), with the masks of
`compute_examples` (`evaluator.py` 690-691). -/
def exampleOf (tbl : List FRow) (t s : Rat) (d : Int) : Option DetExample := do
  let rows := tbl.map FRow.row
  let uid ← (datumMap tbl).lookup d
  let tp ← (uniqueRows ((rows.filter (fun r => pairTp rows t s r && decide (r.datum = d))).map
    (fun r => [r.datum, r.gt, r.pd, r.gl, r.pl]))).mapM (fun k => do
      let g ← (gtMap tbl).lookup (k.getD 1 0)
      let p ← (pdMap tbl).lookup (k.getD 2 0)
      pure (g, p))
  let fp ← (uniqueRows ((rows.filter (fun r => (pairMisclf rows t s r || pairFp rows t s r) && decide (r.datum = d))).map
    (fun r => [r.datum, r.pd, r.pl]))).mapM (fun k => (pdMap tbl).lookup (k.getD 1 0))
  let fn ← (uniqueRows ((rows.filter (fun r => (pairMisclf rows t s r || pairFn rows t s r) && decide (r.datum = d))).map
    (fun r => [r.datum, r.gt, r.gl]))).mapM (fun k => (gtMap tbl).lookup (k.getD 1 0))
  pure ⟨uid, tp, fp, fn, t, s⟩

/-- `unpack_examples` (`utilities.py` 207-260): datums in ascending order, then thresholds. -/
def tableExamples (tbl : List FRow) (ious scores : List Rat) : Option (List DetExample) :=
  ((sortedUnique (tbl.map (fun f => f.row.datum))).flatMap (fun d => ious.flatMap (fun t => scores.map (fun s => (t, s, d))))).mapM
    (fun x => exampleOf tbl x.1 x.2.1 x.2.2)

/-- `compute_examples` (`evaluator.py` 604-706). Empty threshold lists raise `ValueError`, also `none` here. -/
def evalExamples (tables : List (List FRow)) (datums : Option Expr) (ious scores : List Rat) (limit : Option Nat) (offset : Nat) :
    Option (List DetExample) :=
  if ious.isEmpty || scores.isEmpty then none
  else ((((paginate (fun f => f.row.datum) (datums.getD (fun _ => true)) limit offset tables).filter (fun t => !t.isEmpty)).mapM
    (fun tbl => tableExamples tbl ious scores)).map List.flatten)

/-! ## Confusion matrix with examples -/

/-- `astype(np.int32)` on an integer value (`utilities.py` 378). -/
def to32 (x : Int) : Int := (BitVec.ofInt 32 x).toInt

/-- `{"count": .., "examples": [..]}`. -/
structure Cell (α : Type) where
  count : Nat
  examples : List α

/-- `count += 1` and `examples.append`. -/
def Cell.add {α : Type} (c : Cell α) (a : α) : Cell α := ⟨c.count + 1, c.examples ++ [a]⟩

/-- The value of a confusion matrix with examples (`Metric.confusion_matrix_with_examples`, `metric.py` 713-850): the dictionaries are functions of the label texts; all
labels of `index_to_label` are keys (`create_empty_confusion_matrix_with_examples`, `utilities.py` 263-284). Examples are
`(datum, ground truth)`, `(datum, prediction)` and `(datum, ground truth, prediction)`. -/
structure CmExamples where
  ugt : String → Cell (Option String × Option String)
  upd : String → Cell (Option String × Option String)
  cm : String → String → Cell (Option String × Option String × Option String)

/-- `create_empty_confusion_matrix_with_examples` (`utilities.py` 263-284). -/
def CmExamples.empty : CmExamples := ⟨fun _ => ⟨0, []⟩, fun _ => ⟨0, []⟩, fun _ _ => ⟨0, []⟩⟩

/-- `index_to_label[..]`: the labels are numbered from 0. -/
def labelAt (L : List String) (i : Int) : Option String := if i < 0 then none else L[i.toNat]?

/-- `if idx < n_unmatched_groundtruths` (`utilities.py` 317-329). -/
def addUgt (tbl : List FRow) (L : List String) (l : List (List Int)) (m : CmExamples) (idx : Nat) : Option CmExamples :=
  match l[idx]? with
  | none => some m
  | some k => do
    let label ← labelAt L (k.getD 2 0)
    let d ← (datumMap tbl).lookup (k.getD 0 0)
    let g ← (gtMap tbl).lookup (k.getD 1 0)
    pure { m with ugt := Function.update m.ugt label ((m.ugt label).add (d, g)) }

/-- `if idx < n_unmatched_predictions` (`utilities.py` 330-343). -/
def addUpd (tbl : List FRow) (L : List String) (l : List (List Int)) (m : CmExamples) (idx : Nat) : Option CmExamples :=
  match l[idx]? with
  | none => some m
  | some k => do
    let label ← labelAt L (k.getD 2 0)
    let d ← (datumMap tbl).lookup (k.getD 0 0)
    let p ← (pdMap tbl).lookup (k.getD 1 0)
    pure { m with upd := Function.update m.upd label ((m.upd label).add (d, p)) }

/-- `if idx < n_matched` (`utilities.py` 344-360). -/
def addMatch (tbl : List FRow) (L : List String) (l : List (List Int)) (m : CmExamples) (idx : Nat) : Option CmExamples :=
  match l[idx]? with
  | none => some m
  | some k => do
    let gl ← labelAt L (k.getD 3 0)
    let pl ← labelAt L (k.getD 4 0)
    let d ← (datumMap tbl).lookup (k.getD 0 0)
    let g ← (gtMap tbl).lookup (k.getD 1 0)
    let p ← (pdMap tbl).lookup (k.getD 2 0)
    pure { m with cm := Function.update m.cm gl (Function.update (m.cm gl) pl ((m.cm gl pl).add (d, g, p))) }

/-- `_unpack_confusion_matrix_with_examples` (`utilities.py` 287-362), with `mask_matched` of the caller (380). -/
def unpackCm (tbl : List FRow) (t s : Rat) (L : List String) (m : CmExamples) : Option CmExamples :=
  let rows := tbl.map FRow.row
  let matches_ := uniqueRows ((rows.filter (fun r => pairTp rows t s r || pairMisclf rows t s r)).map
    (fun r => [to32 r.datum, to32 r.gt, to32 r.pd, to32 r.gl, to32 r.pl]))
  let upd := uniqueRows ((rows.filter (pairFp rows t s)).map (fun r => [to32 r.datum, to32 r.pd, to32 r.pl]))
  let ugt := uniqueRows ((rows.filter (pairFn rows t s)).map (fun r => [to32 r.datum, to32 r.gt, to32 r.gl]))
  let n := max matches_.length (max ugt.length upd.length)
  (List.range n).foldlM (fun m idx => do
    let m ← addUgt tbl L ugt m idx
    let m ← addUpd tbl L upd m idx
    addMatch tbl L matches_ m idx) m

/-- `compute_confusion_matrix_with_examples` (`evaluator.py` 708-810): one metric for each pair of thresholds. Empty threshold
lists raise `ValueError`, also `none` here. -/
def evalCmExamples (tables : List (List FRow)) (datums : Option Expr) (L : List String) (ious scores : List Rat) :
    Option (List ((Rat × Rat) × CmExamples)) :=
  if ious.isEmpty || scores.isEmpty then none
  else (tables.map (readTable datums)).foldlM (fun ms tbl =>
    if tbl.isEmpty then some ms
    else ms.mapM (fun x => (unpackCm tbl x.1.1 x.1.2 L x.2).map (fun m => (x.1, m))))
    (ious.flatMap (fun t => scores.map (fun s => ((t, s), CmExamples.empty))))

end Verif.Detection
