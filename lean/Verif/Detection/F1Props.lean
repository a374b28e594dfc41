import Verif.Detection.TighterProps
import Verif.Detection.NewHitProps
import Verif.Detection.SharperProps
import Verif.Detection.CurveProps

/-! # C90, C106, C110: F1 (`object_detection/computation.py` 534-567)

The hypotheses are those of `C90_one_more`, `C106_counts` and `C110_detection`; the examples beside them meet them. -/

namespace Verif.Detection

section
variable (e e' : Built) (hH : HistoryOk e.calls.flatten) (hH' : HistoryOk e'.calls.flatten) (hS : SizesOk (Loader.init.addAll e.calls))
  (hS' : SizesOk (Loader.init.addAll e'.calls)) (hD : DistinctLabels e.calls.flatten) (hD' : DistinctLabels e'.calls.flatten)
include hH hH' hS hS' hD hD'

/-- **C106 (F1).** A prediction is added that finds a ground truth of the label that no other prediction finds: F1 of the label does not go down at any score
threshold. -/
theorem C106_f1 {x x' : Det × (Nat → Nat → Rat)} {q : Ann} (h : Adds e.calls.flatten e'.calls.flatten x x' q) {t : Rat} (ht : 0 < t) {v : String}
    (hf : FindsNew x x' t v) (s : Rat) :
    f1 (precision (e.tp t s v) (e.fp t s v)) (recall (e.tp t s v) (e.gt v)) ≤ f1 (precision (e'.tp t s v) (e'.fp t s v)) (recall (e'.tp t s v) (e'.gt v)) := by
  obtain ⟨_, _, _, _, q5, q6⟩ := C106_counts e e' hH hH' hS hS' hD hD' h ht hf s
  exact f1_mono (precision_nonneg _ _) (recall_nonneg _ _) q5 q6

/-- **C110 (detection, F1).** The only prediction that finds an object gives its label a higher score, or a prediction that finds no object of a label gives
the label a lower score: F1 of the label does not go down at any score threshold. -/
theorem C110_f1 {x x' : Det × (Nat → Nat → Rat)} (hc : Changed e.calls.flatten e'.calls.flatten x x') {p : Nat} {a a' : Ann} (h : Rescored x x' p a a')
    {v : String} {t : Rat} (ht : 0 < t)
    (hb : (scoreOf v a ≤ scoreOf v a' ∧ OnlyFinder x t v p) ∨ (scoreOf v a' ≤ scoreOf v a ∧ FindsNone x t v p)) (s : Rat) :
    f1 (precision (e.tp t s v) (e.fp t s v)) (recall (e.tp t s v) (e.gt v)) ≤ f1 (precision (e'.tp t s v) (e'.fp t s v)) (recall (e'.tp t s v) (e'.gt v)) := by
  obtain ⟨_, _, q3, q4⟩ := (C110_detection e e' hH hH' hS hS' hD hD' hc h ht hb).1 s
  exact f1_mono (precision_nonneg _ _) (recall_nonneg _ _) q3 q4

/-- **C90 (F1).** A prediction is added that finds no new ground truth of the label, or does not pass the score threshold: F1 of the label does not
go up. -/
theorem C90_f1 {x x' : Det × (Nat → Nat → Rat)} {q : Ann} (h : Adds e.calls.flatten e'.calls.flatten x x' q) (t s : Rat) (v : String)
    (hf : Passing x' s v x.1.pds.length → FindsNothing x x' t s v) :
    f1 (precision (e'.tp t s v) (e'.fp t s v)) (recall (e'.tp t s v) (e'.gt v)) ≤ f1 (precision (e.tp t s v) (e.fp t s v)) (recall (e.tp t s v) (e.gt v)) := by
  obtain ⟨q1, q2, _, q4⟩ := C90_one_more e e' hH hH' hS hS' hD hD' h t s v hf
  have a3 := (C54_exact e hH hD hS t s v).2.2.1
  have b3 := (C54_exact e' hH' hD' hS' t s v).2.2.1
  have hg : e'.gt v = e.gt v := by omega
  refine f1_mono (precision_nonneg _ _) (recall_nonneg _ _) q4 (le_of_eq ?_)
  rw [q1, hg]

end

end Verif.Detection
