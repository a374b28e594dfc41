import Verif.Classification.ThresholdOnlyProps
import Verif.Classification.MicroProps

/-! # C14, C118: which ground truths drop out of the recall -/

namespace Verif.Classification

/-- A datum that does not score its ground truth and whose scores all stay below the threshold. -/
def Silent (t : Rat) (c : Classif) : Prop := c.gt ∉ c.preds ∧ ∀ s ∈ c.scores, s < t

instance (t : Rat) (c : Classif) : Decidable (Silent t c) := by unfold Silent; infer_instance

theorem none_made {t : Rat} (ht : 1 / 100000000 < t) (c : Classif) : (∀ i, ¬ Made t true c i) ↔ ∀ s ∈ c.scores, s < t := by
  constructor
  · intro h s hs
    by_contra hc
    have hne : c.scores ≠ [] := List.ne_nil_of_mem hs
    obtain ⟨v, h1, h2, h3⟩ := (isWinner_argmax hne (argmax c.scores)).2 rfl
    refine h (argmax c.scores) ((made_iff_counting ht true c _).2 ⟨⟨v, h1, ?_⟩, fun _ => ⟨v, h1, h2, h3⟩⟩)
    exact le_trans (not_lt.1 hc) (h2 s hs)
  · rintro h i ⟨⟨s, h1, h2, _⟩, _⟩
    exact absurd (h s (List.mem_of_getElem? h1)) (not_lt.2 h2)

theorem tp_fn_silent {c : Classif} (hval : c.preds.length = c.scores.length) (hin : c.gt ∉ c.preds) {t : Rat} (ht : 1 / 100000000 < t)
    (l : String) :
    specTP [c] t true l + specFN [c] t true l = if c.gt = l ∧ ¬ Silent t c then 1 else 0 := by
  classical
  have h1 : specTP [c] t true l = 0 := by
    simp only [specTP, List.map_cons, List.map_nil, List.sum_cons, List.sum_nil, Nat.add_zero]
    rw [List.countP_eq_zero]
    intro i _ hi
    rw [decide_eq_true_eq] at hi
    exact hin (hi.1 ▸ List.mem_of_getElem? hi.2.1)
  rw [h1, Nat.zero_add]
  simp only [specFN, List.countP_cons, List.countP_nil, Nat.zero_add, decide_eq_true_eq]
  have : (c.gt = l ∧ ∃ i P, c.preds[i]? = some P ∧ ((P = l ∧ ¬ Made t true c i) ∨ (P ≠ l ∧ Made t true c i))) ↔ c.gt = l ∧ ¬ Silent t c := by
    refine and_congr_right (fun hg => ?_)
    unfold Silent
    rw [← none_made ht]
    constructor
    · rintro ⟨i, P, hP, h | h⟩ hs
      · exact hin (hg ▸ h.1 ▸ List.mem_of_getElem? hP)
      · exact hs.2 i h.2
    · intro h
      have : ∃ i, Made t true c i := by
        by_contra hc
        exact h ⟨hin, fun i hi => hc ⟨i, hi⟩⟩
      obtain ⟨i, hi⟩ := this
      have hlt : i < c.preds.length := by
        obtain ⟨⟨s, hs, _⟩, _⟩ := hi
        rw [hval]
        exact (List.getElem?_eq_some_iff.1 hs).1
      refine ⟨i, c.preds[i], List.getElem?_eq_getElem hlt, Or.inr ⟨fun he => ?_, hi⟩⟩
      exact hin (hg ▸ he ▸ List.getElem_mem hlt)
  simp only [this]

/-- **C14 (exact).** With winner-take-all and predictions that list no label twice, at every threshold above the zero tolerance: TP + FN of a label is
the number of datums with this ground truth, less those that do not score their ground truth and whose scores all stay below the threshold. -/
theorem C14_exact {e : Built} (hL : e.labels.length ≤ 100000) (hnd : ∀ c ∈ history e.calls, c.preds.Nodup) {t : Rat} (ht : 1 / 100000000 < t)
    (v : String) :
    (e.counts t true v).tp + (e.counts t true v).fn + (history e.calls).countP (fun c => decide (c.gt = v ∧ Silent t c))
      = (history e.calls).countP (fun c => decide (c.gt = v)) := by
  rw [e.counts_eq hL]
  unfold countsOf
  dsimp only
  have hv : ∀ c ∈ history e.calls, c.preds.length = c.scores.length := fun c hc => (covers_reach e.calls e.valid c hc).valid
  generalize history e.calls = cs at hnd hv
  induction cs with
  | nil => rfl
  | cons c cs ih =>
    have h := spec_cons c cs t true v
    simp only [Counts.add, Counts.mk.injEq] at h
    have i := ih (fun d hd => hnd d (List.mem_cons_of_mem _ hd)) (fun d hd => hv d (List.mem_cons_of_mem _ hd))
    rw [h.1, h.2.2.1, List.countP_cons, List.countP_cons]
    have one : specTP [c] t true v + specFN [c] t true v + (if decide (c.gt = v ∧ Silent t c) = true then 1 else 0)
        = if decide (c.gt = v) = true then 1 else 0 := by
      simp only [decide_eq_true_eq]
      by_cases hin : c.gt ∈ c.preds
      · have hs : ¬ Silent t c := fun h => h.1 hin
        rw [tp_fn_single (hv c List.mem_cons_self) hin (hnd c List.mem_cons_self) t v]
        simp [hs]
      · rw [tp_fn_silent (hv c List.mem_cons_self) hin ht v]
        by_cases hg : c.gt = v <;> by_cases hs : Silent t c <;> simp [hg, hs]
    omega

theorem silent_split (cs : List Classif) (t : Rat) (v : String) :
    cs.countP (fun c => decide (c.gt = v)) = cs.countP (fun c => decide (c.gt = v ∧ ¬ Silent t c)) + cs.countP (fun c => decide (c.gt = v ∧ Silent t c)) := by
  induction cs with
  | nil => rfl
  | cons c cs ih =>
    rw [List.countP_cons, List.countP_cons, List.countP_cons, ih]
    by_cases hg : c.gt = v <;> by_cases hs : Silent t c <;> simp [hg, hs] <;> omega

/-- **C118 (weighted recall, exact).** Winner-take-all, no label listed twice, a threshold above the zero tolerance: accuracy is the sum of the recalls, each
weighted by the datums of the label that are not silent, over all datums. Weighted by all datums of the labels, the recalls are never below the accuracy. -/
theorem C118_weighted_exact {e : Built} (hL : e.labels.length ≤ 100000) (hnd : ∀ c ∈ history e.calls, c.preds.Nodup) {t : Rat}
    (ht : 1 / 100000000 < t) : ∃ m, e.metrics t true = some m ∧
    m.accuracy * (history e.calls).length = (List.zipWith (fun (l : LabelMetrics) v =>
      l.recall * ((history e.calls).countP (fun c => decide (c.gt = v ∧ ¬ Silent t c)) : Nat)) m.labels e.labels).sum ∧
    m.accuracy * (history e.calls).length ≤ (List.zipWith (fun (l : LabelMetrics) v =>
      l.recall * ((history e.calls).countP (fun c => decide (c.gt = v)) : Nat)) m.labels e.labels).sum := by
  have hcov := covers_reach e.calls e.valid
  refine ⟨_, e.metrics_eq hL t true, ?_⟩
  have h := accuracy_datums (linv_reach e.calls).nodup hcov true t
  rw [← sum_specTP (linv_reach e.calls).nodup (history e.calls) (fun c h => (hcov c h).gt) t true] at h
  have key : ∀ v, ((specTP (history e.calls) t true v : Nat) : Rat)
      = recall (countsOf (history e.calls) true t v) * ((history e.calls).countP (fun c => decide (c.gt = v ∧ ¬ Silent t c)) : Nat) := by
    intro v
    have h1 := C14_exact hL hnd ht v
    rw [e.counts_eq hL, silent_split _ t v] at h1
    have h2 : (countsOf (history e.calls) true t v).tp + (countsOf (history e.calls) true t v).fn
        = (history e.calls).countP (fun c => decide (c.gt = v ∧ ¬ Silent t c)) := by omega
    have := (C16_precision_recall (countsOf (history e.calls) true t v)).2.2.2
    rw [← h2, Nat.cast_add]
    exact this.symm
  have hsum : ∀ (f : String → Rat), (List.zipWith (fun (l : LabelMetrics) v => l.recall * f v)
      (toMetrics (history e.calls).length (e.labels.map (fun v => countsOf (history e.calls) true t v))).labels e.labels).sum
        = (e.labels.map (fun v => recall (countsOf (history e.calls) true t v) * f v)).sum := by
    intro f
    unfold toMetrics
    rw [List.map_map, zipWith_map_self]
    rfl
  have hacc : (toMetrics (history e.calls).length (e.labels.map (fun v => countsOf (history e.calls) true t v))).accuracy * (history e.calls).length
      = (e.labels.map (fun v => ((specTP (history e.calls) t true v : Nat) : Rat))).sum := by
    refine Eq.trans h ?_
    rw [sum_cast, List.map_map]
    rfl
  refine ⟨?_, ?_⟩
  · refine hacc.trans (Eq.trans ?_ (hsum _).symm)
    simp only [key]
  · refine hacc.le.trans (le_trans ?_ (hsum _).symm.le)
    refine List.sum_le_sum (fun v _ => ?_)
    rw [key]
    refine mul_le_mul_of_nonneg_left ?_ (C16_precision_recall _).2.1
    rw [silent_split (history e.calls) t v]
    exact_mod_cast Nat.le_add_right _ _

/-- Three datums of `a`: found, not scored but a wrong winner, not scored and silent; at 1/2 the recall knows of two. -/
example : ∃ e : Built, e.labels.length ≤ 100000 ∧ (∀ c ∈ history e.calls, c.preds.Nodup) ∧
    (history e.calls).countP (fun c => decide (c.gt = "a")) = 3 ∧
    (e.counts (1 / 2) true "a").tp + (e.counts (1 / 2) true "a").fn = 2 := by
  obtain ⟨e, he⟩ := built_exists [[⟨"u", "a", ["a", "b"], [3 / 5, 2 / 5], ""⟩, ⟨"v", "a", ["b"], [7 / 10], ""⟩, ⟨"w", "a", ["b"], [3 / 10], ""⟩]]
    (by decide +kernel)
  have hL : e.labels.length ≤ 100000 := by unfold Built.labels; rw [he]; decide +kernel
  have hnd : ∀ c ∈ history e.calls, c.preds.Nodup := by rw [he]; decide +kernel
  have h3 : (history e.calls).countP (fun c => decide (c.gt = "a")) = 3 := by rw [he]; decide +kernel
  have h1 : (history e.calls).countP (fun c => decide (c.gt = "a" ∧ Silent (1 / 2) c)) = 1 := by rw [he]; decide +kernel
  have h := C14_exact hL hnd (t := 1 / 2) (by norm_num) "a"
  rw [h3, h1] at h
  exact ⟨e, hL, hnd, h3, by omega⟩

end Verif.Classification
