import Verif.Classification.SharperProps
import Verif.Classification.OneMoreProps

/-! # C110: F1 (`classification/computation.py` 202-216)

The hypotheses are those of `C110_classification`; the example beside it meets them. -/

namespace Verif.Classification

/-- **C110 (classification, F1).** The ground truth label of every datum has a score at least as high as before and every other label one at most as high: without
winner-take-all, F1 of no label goes down. -/
theorem C110_classification_f1 (e e' : Built) (h : SharperAll (history e.calls) (history e'.calls)) (hL : e.labels.length ≤ 100000)
    (hL' : e'.labels.length ≤ 100000) (t : Rat) :
    ∀ v ∈ e.labels, ∃ m m', e.metricsOf t false v = some m ∧ e'.metricsOf t false v = some m' ∧ m.f1 ≤ m'.f1 := by
  intro v hv
  obtain ⟨m, m', h1, h2, _, _, h3, h4⟩ := (C110_classification e e' h hL t false).2 v hv
  refine ⟨m, m', h1, h2, ?_⟩
  obtain ⟨p, r, f⟩ := e.label_metrics hL h1
  rw [f, (e'.label_metrics hL' h2).2.2]
  have hq : ∀ a b : Nat, 0 ≤ Verif.Segmentation.ratio a b := by
    intro a b
    unfold Verif.Segmentation.ratio
    split
    · exact le_refl _
    · positivity
  exact f1_mono (p ▸ hq _ _) (r ▸ hq _ _) (h4 rfl).2 h3

end Verif.Classification
