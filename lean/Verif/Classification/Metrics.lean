import Verif.Classification.Counts

/-!
# Precision, recall, F1 and accuracy (`classification/computation.py` 172-233,
`classification/evaluator.py` 569-627, `classification/shared.py` 134-141)

Arrays indexed by threshold and label are nested lists; the NumPy operations are elementwise. Counts
are unbounded naturals instead of `uint64` and quotients are exact rationals instead of floats
(trusted base).
-/

namespace Verif.Classification

/-- `compute_precision` (`computation.py` 172-184), one entry. `np.divide(..., where=..., out=zeros)`
leaves 0 where the condition is false. -/
def precision (c : Counts) : Rat := if c.tp + c.fp > 0 then (c.tp : Rat) / ((c.tp + c.fp : Nat) : Rat) else 0

/-- `compute_recall` (`computation.py` 187-199), one entry. -/
def recall (c : Counts) : Rat := if c.tp + c.fn > 0 then (c.tp : Rat) / ((c.tp + c.fn : Nat) : Rat) else 0

/-- `compute_f1_score` (`computation.py` 202-215), one entry. -/
def f1 (p r : Rat) : Rat := if p + r > 1 / 1000000000 then 2 * p * r / (p + r) else 0

/-- `compute_accuracy` (`computation.py` 218-233), one threshold. -/
def accuracy (row : List Counts) (nDatums : Nat) : Rat :=
  if nDatums = 0 then 0 else ((row.map Counts.tp).sum : Rat) / nDatums

/-- `extract_counts` (`shared.py` 134-141) over the tables of the reader. -/
def numberOfDatums (frags : List (List Row)) : Nat :=
  (frags.map (fun f => (unique (f.map Row.datum)).length)).sum

/-- The metrics of one label at one threshold (`utilities.py` 33-67). -/
structure LabelMetrics where
  counts : Counts
  precision : Rat
  recall : Rat
  f1 : Rat
deriving DecidableEq

/-- All metrics of one threshold. -/
structure ThresholdMetrics where
  accuracy : Rat
  labels : List LabelMetrics
deriving DecidableEq

/-- The metrics derived from counts (`evaluator.py` 613-627). -/
def toMetrics (nDatums : Nat) (row : List Counts) : ThresholdMetrics :=
  { accuracy := accuracy row nDatums
    labels := row.map (fun c => ⟨c, precision c, recall c, f1 (precision c) (recall c)⟩) }

/-- `compute_precision_recall` (`evaluator.py` 569-627). A pyarrow filter expression is a predicate on
rows. `none`: an exception is raised. The number of datums comes from `self.info`, to which the
filter is not handed (`evaluator.py` 595). -/
def computePrecisionRecall (frags : List (List Row)) (ts : List Rat) (hardmax : Bool) (nLabels : Nat)
    (datums : Option (Row → Bool)) : Option (List ThresholdMetrics) :=
  if ts.isEmpty then none
  else
    let tables := match datums with
      | none => frags
      | some p => frags.map (fun f => f.filter p)
    (evalCounts tables ts hardmax nLabels).map (fun cs => cs.map (toMetrics (numberOfDatums frags)))

end Verif.Classification
