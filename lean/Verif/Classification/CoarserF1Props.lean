import Verif.Classification.BetweenProps
import Verif.Classification.CoarserProps

/-! # C127: F1 (`classification/computation.py` 202-216) -/

namespace Verif.Classification

/-- **C127 (F1, partial).** F1 of a coarse label is at least the least F1 of its parts, under the conditions of `C127_recall_partial` and with at most 10^9
predictions. Missing: as in `C127_recall_partial`, and larger datasets, for which the code reports 0 for a small F1 (C16). -/
theorem C127_f1_partial {ρ : String → String} {e e' : Built} (h : Coarser ρ e e') (hL : e.labels.length ≤ 100000) (hL' : e'.labels.length ≤ 100000) (t : Rat)
    (hP : ∀ c ∈ history e.calls, c.preds.Nodup ∧ (c.gt ∈ c.preds ∨ Reaches t c)) (hP' : ∀ c ∈ history e'.calls, c.preds.Nodup)
    (hsize : ((history e.calls).map (fun c => c.preds.length)).sum ≤ 1000000000) (hsize' : ((history e'.calls).map (fun c => c.preds.length)).sum ≤ 1000000000)
    {w : String} (hw : w ∈ e'.labels) :
    ∃ v ∈ e.labels, ρ v = w ∧ ∃ x x', e.metricsOf t true v = some x ∧ e'.metricsOf t true w = some x' ∧ x.f1 ≤ x'.f1 := by
  have k1 := coarser_tp h t w
  have k2 := coarser_predicted h t w
  have k3 := coarser_truth h t hP hP' w
  obtain ⟨v, hv, hle⟩ := least_part (finer_ne h hw) (a := fun v => 2 * specTP (history e.calls) t true v)
    (b := fun v => 2 * specTP (history e.calls) t true v + (specFP (history e.calls) t true v + specFN (history e.calls) t true v))
    (a' := 2 * specTP (history e'.calls) t true w)
    (b' := 2 * specTP (history e'.calls) t true w + (specFP (history e'.calls) t true w + specFN (history e'.calls) t true w))
    (by simp only [two_mul]; rw [← sum_map_add]; exact Nat.add_le_add k1 k1)
    (by
      have : ∀ v, 2 * specTP (history e.calls) t true v + (specFP (history e.calls) t true v + specFN (history e.calls) t true v) =
          (specTP (history e.calls) t true v + specFP (history e.calls) t true v) + (specTP (history e.calls) t true v + specFN (history e.calls) t true v) :=
        fun v => by omega
      simp only [this]
      rw [← sum_map_add, k2, k3]
      omega)
  obtain ⟨hv, hρ⟩ := List.mem_filter.1 hv
  obtain ⟨x, hx⟩ : ∃ x, e.metricsOf t true v = some x := ⟨_, by rw [e.metricsOf_eq hL, if_pos hv]⟩
  obtain ⟨x', hx'⟩ : ∃ x', e'.metricsOf t true w = some x' := ⟨_, by rw [e'.metricsOf_eq hL', if_pos hw]⟩
  refine ⟨v, hv, of_decide_eq_true hρ, x, x', hx, hx', ?_⟩
  rw [e.f1_value hL hx ((spec_le _ t true v).trans hsize), e'.f1_value hL' hx' ((spec_le _ t true w).trans hsize')]
  exact hle

/-- The hypotheses hold for the cat and the dog. -/
example : ∃ e e' : Built, Coarser animals e e' ∧ e.labels.length ≤ 100000 ∧ e'.labels.length ≤ 100000 ∧
    (∀ c ∈ history e.calls, c.preds.Nodup ∧ (c.gt ∈ c.preds ∨ Reaches (1 / 2) c)) ∧ (∀ c ∈ history e'.calls, c.preds.Nodup) ∧
    ((history e.calls).map (fun c => c.preds.length)).sum ≤ 1000000000 ∧ ((history e'.calls).map (fun c => c.preds.length)).sum ≤ 1000000000 ∧
    "animal" ∈ e'.labels := by
  refine ⟨⟨petCalls, by decide +kernel, (Loader.init.addAll petCalls).rows, ⟨List.Perm.refl _, by decide +kernel⟩⟩,
    ⟨animalCalls', by decide +kernel, (Loader.init.addAll animalCalls').rows, ⟨List.Perm.refl _, by decide +kernel⟩⟩,
    ⟨_, List.Perm.refl _, pets_animals'⟩, by show (Loader.init.addAll petCalls).labels.length ≤ 100000; decide +kernel,
    by show (Loader.init.addAll animalCalls').labels.length ≤ 100000; decide +kernel, ?_, by show ∀ c ∈ history animalCalls', _; decide +kernel,
    by decide +kernel, by decide +kernel, by show _ ∈ (Loader.init.addAll animalCalls').labels; decide +kernel⟩
  have : ∀ c ∈ history petCalls, c.preds.Nodup ∧ c.gt ∈ c.preds := by decide +kernel
  exact fun c hc => ⟨(this c hc).1, .inl (this c hc).2⟩

end Verif.Classification
