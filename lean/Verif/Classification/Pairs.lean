import Verif.Classification.Counts
import Mathlib.Data.List.Sort

/-!
# Pair classifications, confusion matrices and examples
(`classification/computation.py` 236-378, `classification/evaluator.py` 629-875,
`classification/utilities.py` 92-289)

`np.unique` is modelled by `List.dedup` except for the datums of `compute_examples`: the order of the distinct rows,
hence of the examples inside a cell and of the labels inside an entry, is not modelled.
-/

namespace Verif.Classification

/-- `mask_score` at the successive thresholds (`computation.py` 290-295): the array is updated in place
with `&=`, so each pass narrows the previous one. -/
def scoreMasks (hardmax : Bool) : List Rat → (Row → Bool) → List (Row → Bool)
  | [], _ => []
  | t :: ts, m =>
    let m' := fun r : Row => m r && decide (r.score ≥ t) && (!hardmax || r.winner)
    m' :: scoreMasks hardmax ts m'

/-- The masks at one threshold (`computation.py` 289-331). The bit flags are separate fields. -/
structure PairMasks where
  tp : Row → Bool
  misclf : Row → Bool
  unmatched : Row → Bool

/-- The masks derived from `mask_score` (`computation.py` 289-313): a row is marked unmatched when no
row of its table with the same datum and ground truth passes. -/
def masksOf (rows : List Row) (m : Row → Bool) : PairMasks :=
  { tp := fun r => labelMatch r && m r
    misclf := fun r => !labelMatch r && m r
    unmatched := fun r => !(rows.any (fun r' => m r' && (r'.datum == r.datum && r'.gt == r.gt))) }

/-- `compute_pair_classifications` (`computation.py` 242-332). -/
def pairMasks (rows : List Row) (ts : List Rat) (hardmax : Bool) : List PairMasks :=
  (scoreMasks hardmax ts (fun r => decide (r.score > 1 / 1000000000))).map (masksOf rows)

/-- A confusion matrix: `cells[g][p]` and the unmatched ground truths. -/
structure CM where
  cells : List (List Nat)
  unmatched : List Nat
deriving DecidableEq, Repr

/-- Ids valid as indices of an axis of length `n`. (NumPy would accept negative indices from the end;
stored ids are never negative and the model raises instead.) -/
def okIds (n : Nat) (xs : List Int) : Bool := xs.all (fun x => decide (0 ≤ x) && decide (x < n))

/-- `compute_confusion_matrix` (`computation.py` 335-378) at one threshold. `none`: IndexError. -/
def cmOf (rows : List Row) (n : Nat) (k : PairMasks) : Option CM :=
  let pairs := (unique ((rows.filter (fun r => k.tp r || k.misclf r)).map
    (fun r => (r.datum, r.gt, r.pd)))).map Prod.snd
  let unm := (unique ((rows.filter k.unmatched).map (fun r => (r.datum, r.gt)))).map Prod.snd
  if okIds n (pairs.map Prod.fst) && okIds n (pairs.map Prod.snd) && okIds n unm then
    some
      { cells := (List.range n).map (fun g : Nat => (List.range n).map (fun p : Nat =>
          pairs.count ((g : Int), (p : Int))))
        unmatched := (List.range n).map (fun g : Nat => unm.count (g : Int)) }
  else none

/-- Array addition. -/
def CM.add (a b : CM) : CM :=
  ⟨List.zipWith (List.zipWith (· + ·)) a.cells b.cells, List.zipWith (· + ·) a.unmatched b.unmatched⟩

/-- Zeros (`evaluator.py` 657-664). -/
def CM.zero (n : Nat) : CM := ⟨List.replicate n (List.replicate n 0), List.replicate n 0⟩

/-- `Evaluator.compute_confusion_matrix` (`evaluator.py` 629-695), the tables being those left by the
`datums` filter. `none`: an exception. -/
def evalCM (frags : List (List Row)) (ts : List Rat) (hardmax : Bool) (n : Nat) : Option (List CM) :=
  if ts.isEmpty then none
  else frags.foldlM
    (fun acc f => ((pairMasks f ts hardmax).mapM (cmOf f n)).map (List.zipWith CM.add acc))
    (ts.map (fun _ => CM.zero n))

/-! ## Matrix with examples -/

/-- One cell: `{"count": ..., "examples": [...]}` (`utilities.py` 203-208). -/
structure Cell (α : Type) where
  count : Nat
  examples : List α
deriving DecidableEq, Repr

/-- `count += 1` and `examples.append` (`utilities.py` 271-279, 283-287). -/
def Cell.push {α : Type} (c : Cell α) (x : α) : Cell α := ⟨c.count + 1, c.examples ++ [x]⟩

/-- The metric value (`utilities.py` 198-216); dictionaries keyed by label are lists indexed by label
id (labels and ids are in bijection, C12). -/
structure ExCM where
  cells : List (List (Cell (String × Rat)))
  unmatched : List (Cell String)
deriving DecidableEq

/-- `create_empty_confusion_matrix_with_examples` (`utilities.py` 198-216). -/
def ExCM.empty (n : Nat) : ExCM :=
  ⟨List.replicate n (List.replicate n ⟨0, []⟩), List.replicate n ⟨0, []⟩⟩

/-- Update of one cell of the matrix (`utilities.py` 271-279). -/
def ExCM.pushCell (acc : ExCM) (g p : Nat) (x : String × Rat) : ExCM :=
  ⟨acc.cells.modify g (fun row => row.modify p (fun c => c.push x)), acc.unmatched⟩

/-- Update of one entry of the unmatched ground truths (`utilities.py` 283-287). -/
def ExCM.pushUnmatched (acc : ExCM) (g : Nat) (uid : String) : ExCM :=
  ⟨acc.cells, acc.unmatched.modify g (fun c => c.push uid)⟩

/-- `index_to_datum_id` (`utilities.py` 122-134): the uid in the first row of the datum; `none`:
KeyError. -/
def uidOf (rows : List Row) (d : Int) : Option String :=
  (rows.find? (fun r => decide (r.datum = d))).map Row.uid

/-- The matched part of the loop body (`utilities.py` 265-279). `none`: KeyError. -/
def addMatch (n : Nat) (rows : List Row) (m : Row → Bool) (acc : ExCM) (x : Int × Int × Int) :
    Option ExCM := do
  let uid ← uidOf rows x.1
  let first ← (rows.filter m).find? (fun r => decide ((r.datum, r.gt, r.pd) = x))
  if okIds n [x.2.1, x.2.2] then
    some (acc.pushCell x.2.1.toNat x.2.2.toNat (uid, first.score))
  else none

/-- The unmatched part of the loop body (`utilities.py` 280-287). `none`: KeyError. -/
def addUnmatched (n : Nat) (rows : List Row) (acc : ExCM) (x : Int × Int) : Option ExCM := do
  let uid ← uidOf rows x.1
  if okIds n [x.2] then
    some (acc.pushUnmatched x.2.toNat uid)
  else none

/-- `_unpack_confusion_matrix_with_examples` (`utilities.py` 219-289) at one threshold. The loop
interleaves both parts, which touch different entries; here the matched ones come first. Stored ids
are never negative, so that `valid_matches` and `valid_gts` are all rows. -/
def unpackExCM (n : Nat) (rows : List Row) (acc : ExCM) (k : PairMasks) : Option ExCM := do
  let m := fun r => k.tp r || k.misclf r
  let acc ← (unique ((rows.filter m).map (fun r => (r.datum, r.gt, r.pd)))).foldlM (addMatch n rows m) acc
  (unique ((rows.filter k.unmatched).map (fun r => (r.datum, r.gt)))).foldlM (addUnmatched n rows) acc

/-- `compute_confusion_matrix_with_examples` (`evaluator.py` 789-875). `none`: an exception. -/
def evalExCM (frags : List (List Row)) (ts : List Rat) (hardmax : Bool) (n : Nat) :
    Option (List ExCM) :=
  if ts.isEmpty then none
  else frags.foldlM
    (fun acc f => if f.isEmpty then some acc
      else (acc.zip (pairMasks f ts hardmax)).mapM (fun x => unpackExCM n f x.1 x.2))
    (ts.map (fun _ => ExCM.empty n))

/-! ## Examples per datum -/

/-- The entry of one datum at one threshold (`utilities.py` 177-193). -/
structure Example where
  uid : String
  tp : List String
  fn : List String
  fp : List String
deriving DecidableEq, Repr

/-- `index_to_label[...]`. `none`: KeyError. -/
def labelOf (labels : List String) (i : Int) : Option String :=
  if 0 ≤ i then labels[i.toNat]? else none

/-- The body of the loops of `unpack_examples` (`utilities.py` 148-193). `mask_fn` is
`mask_fp_fn_misclf | mask_fn_unmatched`, `mask_fp` is `mask_fp_fn_misclf` (`evaluator.py` 772-773). -/
def exampleOf (rows : List Row) (labels : List String) (d : Int) (k : PairMasks) : Option Example := do
  let uid ← uidOf rows d
  let here := rows.filter (fun r => decide (r.datum = d))
  let tp ← (unique ((here.filter k.tp).map (fun r => (r.datum, r.gt, r.pd)))).mapM
    (fun x => labelOf labels x.2.1)
  let fp ← (unique ((here.filter k.misclf).map (fun r => (r.datum, r.pd)))).mapM
    (fun x => labelOf labels x.2)
  let fn ← (unique ((here.filter (fun r => k.misclf r || k.unmatched r)).map
    (fun r => (r.datum, r.gt)))).mapM (fun x => labelOf labels x.2)
  return { uid := uid, tp := tp, fn := fn.filter (fun l => !tp.contains l),
           fp := fp.filter (fun l => !tp.contains l) }

/-- `np.unique` of one column: the distinct values in ascending order. -/
def uniqueAsc (l : List Int) : List Int := l.dedup.insertionSort (· ≤ ·)

/-- `unpack_examples` (`utilities.py` 137-195) on one table: for each datum, in the order of `np.unique` (`utilities.py` 148), one
entry per threshold. -/
def examplesOf (rows : List Row) (labels : List String) (ts : List Rat) (hardmax : Bool) :
    Option (List (List Example)) :=
  (uniqueAsc (rows.map Row.datum)).mapM (fun d =>
    (pairMasks rows ts hardmax).mapM (exampleOf rows labels d))

/-- `Evaluator.compute_examples` (`evaluator.py` 697-787), the tables being those yielded by
`paginate_index`. The metrics of one datum at the successive thresholds form one entry of the result.
`none`: an exception. -/
def evalExamples (frags : List (List Row)) (labels : List String) (ts : List Rat) (hardmax : Bool) :
    Option (List (List Example)) :=
  if ts.isEmpty then none
  else frags.foldlM
    (fun acc f => if f.isEmpty then some acc else (examplesOf f labels ts hardmax).map (acc ++ ·)) []

end Verif.Classification
