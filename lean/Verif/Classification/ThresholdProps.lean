import Verif.Classification.ReportProps

/-!
# C18: results at one threshold do not depend on the other thresholds requested (`classification/evaluator.py` 568-627)
-/

namespace Verif.Classification

theorem countP_disjoint {α : Type} (l : List α) (p q : α → Bool) (h : ∀ a, p a = true → q a = false) : l.countP p + l.countP q ≤ l.length := by
  induction l with
  | nil => simp
  | cons a l ih =>
    rw [List.countP_cons, List.countP_cons, List.length_cons]
    have := h a
    cases hp : p a <;> cases hq : q a <;> simp_all <;> omega

open Classical in
/-- The predictions of a label are among the predictions. -/
theorem spec_le (cs : List Classif) (t : Rat) (hm : Bool) (v : String) :
    specTP cs t hm v + specFP cs t hm v ≤ (cs.map (fun c => c.preds.length)).sum := by
  unfold specTP specFP
  induction cs with
  | nil => simp
  | cons c cs ih =>
    simp only [List.map_cons, List.sum_cons]
    have := countP_disjoint (List.range c.preds.length) (fun i => decide (c.gt = v ∧ c.preds[i]? = some v ∧ Made t hm c i))
      (fun i => decide (c.gt ≠ v ∧ c.preds[i]? = some v ∧ Made t hm c i)) (by
        intro a ha
        simp only [decide_eq_true_eq, decide_eq_false_iff_not] at ha ⊢
        exact fun hb => hb.1 ha.1)
    rw [List.length_range] at this
    omega

/-- **C18 (classification).** Two requests with any thresholds in any order: both succeed, every metric has a threshold that was asked, every
label has its metrics at every threshold, and a metric of one report whose threshold was also asked by the other is in the other. -/
theorem C18_classification (calls : List (List Classif)) (hv : ∀ c ∈ calls.flatten, c.valid = true)
    (hL : (Loader.init.addAll calls).labels.length ≤ 100000) {frags : List (List Row)}
    (hf : FragmentsOf frags (Loader.init.addAll calls).rows.flatten) {ts ts' : List Rat} (hts : ts ≠ []) (hts' : ts' ≠ []) (hm : Bool)
    (hsmall : ((history calls).map (fun c => c.preds.length)).sum ≤ 1000000000) :
    let labels := evalLabels frags
    ∃ R A, reportPrecisionRecall frags ts hm labels = some R ∧ reportPrecisionRecall frags ts' hm labels = some A ∧
      (∀ m ∈ R.accuracy ++ R.counts ++ R.precision ++ R.recall ++ R.f1, ∃ t ∈ ts, m.threshold = some t) ∧
      (∀ v ∈ (Loader.init.addAll calls).labels, ∀ t ∈ ts, ∃ m ∈ R.f1, m.label = some v ∧ m.threshold = some t) ∧
      ∀ t ∈ ts, t ∈ ts' → ∀ m, m.threshold = some t →
        (m ∈ R.accuracy ↔ m ∈ A.accuracy) ∧ (m ∈ R.counts ↔ m ∈ A.counts) ∧ (m ∈ R.precision ↔ m ∈ A.precision) ∧
        (m ∈ R.recall ↔ m ∈ A.recall) ∧ (m ∈ R.f1 ↔ m ∈ A.f1) := by
  intro labels
  obtain ⟨hp, R, r0, r1, r2, r3, r4, r5⟩ := C64_report calls hv hL hf hts hm
  obtain ⟨_, A, a0, a1, a2, a3, a4, a5⟩ := C64_report calls hv hL hf hts' hm
  replace r5 := r5 (fun t _ lb _ => le_trans (spec_le _ t hm lb.2) hsmall)
  replace a5 := a5 (fun t _ lb _ => le_trans (spec_le _ t hm lb.2) hsmall)
  refine ⟨R, A, r0, a0, ?_, ?_, ?_⟩
  · rw [r1, r2, r3, r4, r5]
    intro m hm
    simp only [List.mem_append, List.mem_map, List.mem_flatMap] at hm
    grind
  · intro v hv t ht
    rw [r5]
    obtain ⟨lb, hlb, rfl⟩ := List.mem_map.1 (hp.mem_iff.2 hv)
    exact ⟨_, List.mem_flatMap.2 ⟨lb, hlb, List.mem_map.2 ⟨t, ht, rfl⟩⟩, rfl, rfl⟩
  · intro t h1 h2 m hmt
    rw [r1, r2, r3, r4, r5, a1, a2, a3, a4, a5]
    simp only [List.mem_map, List.mem_flatMap]
    refine ⟨?_, ?_, ?_, ?_, ?_⟩ <;> grind

/-- The conditions of `C18_classification` are met by `sample`. -/
example : (∀ c ∈ sample.flatten, c.valid = true) ∧ (Loader.init.addAll sample).labels.length ≤ 100000 ∧
    FragmentsOf [(Loader.init.addAll sample).rows.flatten] (Loader.init.addAll sample).rows.flatten ∧
    ((history sample).map (fun c => c.preds.length)).sum ≤ 1000000000 :=
  ⟨by decide +kernel, by decide +kernel, ⟨by simp, by simp⟩, by decide +kernel⟩

end Verif.Classification
