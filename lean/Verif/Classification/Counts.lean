import Verif.Classification.Loader
import Mathlib.Data.List.Dedup
import Mathlib.Algebra.Order.Group.Unbundled.Abs

/-!
# Classification counts (`classification/computation.py` 93-233, `classification/evaluator.py` 499-627)
-/

namespace Verif.Classification

/-- `np.isclose(a, b)` with default tolerances. -/
def isclose (a b : Rat) : Bool := decide (|a - b| ≤ 1 / 100000000 + 1 / 100000 * |b|)

/-- `mask_score` (`computation.py` 136-147) of one row. -/
def scoreMask (t : Rat) (hardmax : Bool) (r : Row) : Bool :=
  !isclose r.score 0 && decide (r.score ≥ t) && (!hardmax || r.winner)

/-- `mask_matching_labels` (`computation.py` 135) of one row: ids are compared with `np.isclose`. -/
def labelMatch (r : Row) : Bool := isclose r.gt r.pd

/-- `mask_tp` (`computation.py` 149). -/
def tpMask (t : Rat) (h : Bool) (r : Row) : Bool := labelMatch r && scoreMask t h r

/-- `mask_fp` (`computation.py` 150, 155). -/
def fpMask (t : Rat) (h : Bool) (r : Row) : Bool :=
  (!labelMatch r && scoreMask t h r) && decide (r.pd ≥ 0)

/-- `mask_fn` (`computation.py` 151, 154): evaluated before `mask_fp` is restricted. -/
def fnMask (t : Rat) (h : Bool) (r : Row) : Bool :=
  ((labelMatch r && !scoreMask t h r) || (!labelMatch r && scoreMask t h r)) && decide (r.gt ≥ 0)

/-- `mask_tn` (`computation.py` 152). -/
def tnMask (t : Rat) (h : Bool) (r : Row) : Bool := !labelMatch r && !scoreMask t h r

/-- `np.bincount(xs, minlength=n)` assigned to a slice of length `n` (`computation.py` 160-167):
`none` when a value is negative or the result is longer than `n` (both raise `ValueError`). -/
def bincount (xs : List Int) (n : Nat) : Option (List Nat) :=
  if xs.all (fun x => decide (0 ≤ x) && decide (x < n)) then
    some ((List.range n).map (fun l : Nat => xs.count (l : Int)))
  else none

/-- `np.unique(pairs, axis=0)`: distinct rows. (The order, ascending, is irrelevant to the counts
taken from it.) -/
def unique {β : Type} [DecidableEq β] (l : List β) : List β := l.dedup

/-- Counts of one label. -/
structure Counts where
  tp : Nat
  fp : Nat
  fn : Nat
  tn : Nat
deriving DecidableEq, Repr

/-- Componentwise addition (`counts += batch_counts`, `evaluator.py` 611). -/
def Counts.add (a b : Counts) : Counts := ⟨a.tp + b.tp, a.fp + b.fp, a.fn + b.fn, a.tn + b.tn⟩

/-- Zero counts. -/
def Counts.zero : Counts := ⟨0, 0, 0, 0⟩

/-- The counts at one threshold (`computation.py` 143-167). -/
def countsAt (rows : List Row) (h : Bool) (n : Nat) (t : Rat) : Option (List Counts) := do
  let fn := unique ((rows.filter (fnMask t h)).map (fun r => (r.datum, r.gt)))
  let tn := unique ((rows.filter (tnMask t h)).map (fun r => (r.datum, r.pd)))
  let a ← bincount ((rows.filter (tpMask t h)).map Row.pd) n
  let b ← bincount ((rows.filter (fpMask t h)).map Row.pd) n
  let c ← bincount (fn.map Prod.snd) n
  let d ← bincount (tn.map Prod.snd) n
  return (List.range n).map (fun l => ⟨a.getD l 0, b.getD l 0, c.getD l 0, d.getD l 0⟩)

/-- `compute_counts` (`computation.py` 93-169). -/
def computeCounts (rows : List Row) (ts : List Rat) (h : Bool) (n : Nat) :
    Option (List (List Counts)) :=
  if rows.isEmpty then some (ts.map (fun _ => List.replicate n Counts.zero))
  else ts.mapM (countsAt rows h n)

/-- Array addition. -/
def addAll (a b : List (List Counts)) : List (List Counts) :=
  List.zipWith (List.zipWith Counts.add) a b

/-- The loop of `compute_precision_recall` (`evaluator.py` 597-611); `frags` are the tables yielded
by the reader after applying the `datums` filter. -/
def evalCounts (frags : List (List Row)) (ts : List Rat) (h : Bool) (n : Nat) :
    Option (List (List Counts)) :=
  frags.foldlM (fun acc f => (computeCounts f ts h n).map (addAll acc))
    (ts.map (fun _ => List.replicate n Counts.zero))

/-! ## Specification vocabulary: counts of a list of classifications, by label name -/

/-- Prediction `i` of `c` has the highest score and no earlier prediction reaches it. -/
def IsWinner (c : Classif) (i : Nat) : Prop :=
  ∃ v, c.scores[i]? = some v ∧ (∀ y ∈ c.scores, y ≤ v) ∧
    ∀ j, j < i → ∀ y, c.scores[j]? = some y → y < v

/-- Prediction `i` of `c` counts as made at threshold `t`: its score reaches the threshold, is not
(nearly) zero, and with winner-take-all it is the winner. -/
def Made (t : Rat) (hardmax : Bool) (c : Classif) (i : Nat) : Prop :=
  (∃ s, c.scores[i]? = some s ∧ t ≤ s ∧ 1 / 100000000 < |s|) ∧ (hardmax = true → IsWinner c i)

open Classical in
/-- Number of predictions of `L` made for datums whose ground truth is `L`. -/
noncomputable def specTP (cs : List Classif) (t : Rat) (hm : Bool) (L : String) : Nat :=
  (cs.map (fun c => (List.range c.preds.length).countP
    (fun i => decide (c.gt = L ∧ c.preds[i]? = some L ∧ Made t hm c i)))).sum

open Classical in
/-- Number of predictions of `L` made for datums whose ground truth is another label. -/
noncomputable def specFP (cs : List Classif) (t : Rat) (hm : Bool) (L : String) : Nat :=
  (cs.map (fun c => (List.range c.preds.length).countP
    (fun i => decide (c.gt ≠ L ∧ c.preds[i]? = some L ∧ Made t hm c i)))).sum

open Classical in
/-- Number of datums with ground truth `L` for which a prediction of `L` was not made or a prediction
of another label was made. -/
noncomputable def specFN (cs : List Classif) (t : Rat) (hm : Bool) (L : String) : Nat :=
  cs.countP (fun c => decide (c.gt = L ∧ ∃ i P, c.preds[i]? = some P ∧
    ((P = L ∧ ¬ Made t hm c i) ∨ (P ≠ L ∧ Made t hm c i))))

open Classical in
/-- Number of datums with another ground truth that scored `L` without making the prediction. -/
noncomputable def specTN (cs : List Classif) (t : Rat) (hm : Bool) (L : String) : Nat :=
  cs.countP (fun c => decide (c.gt ≠ L ∧ ∃ i, c.preds[i]? = some L ∧ ¬ Made t hm c i))

/-- Tables that hold the rows of `rows` in any order, cut anywhere between datums. -/
structure FragmentsOf (frags : List (List Row)) (rows : List Row) : Prop where
  perm : frags.flatten.Perm rows
  aligned : frags.Pairwise (fun a b => ∀ x ∈ a, ∀ y ∈ b, x.datum ≠ y.datum)

end Verif.Classification
