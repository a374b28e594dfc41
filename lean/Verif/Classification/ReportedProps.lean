import Verif.Classification.MetricsProps

/-!
# C16: the values that are reported

`C16_precision_recall` and `C16_f1_partial` are about the formulas; here the claims are about the entries of the report.
-/

namespace Verif.Classification

/-- **C16 (reported values, partial).** In every report, with any filter, threshold and mode, the precision, recall and F1 beside the counts of a
label are the fractions of these counts, and 0 where the denominator is 0. Missing: the F1 of labels that were predicted more than 10^9 times
(`C16_f1_violation`). -/
theorem C16_reported_partial {frags : List (List Row)} {ts : List Rat} {hardmax : Bool} {n : Nat} {datums : Option (Row → Bool)}
    {ms : List ThresholdMetrics} (h : computePrecisionRecall frags ts hardmax n datums = some ms) {m : ThresholdMetrics} (hm : m ∈ ms)
    {l : LabelMetrics} (hl : l ∈ m.labels) :
    (l.precision * (l.counts.tp + l.counts.fp) = l.counts.tp ∧ (l.counts.tp + l.counts.fp = 0 → l.precision = 0)) ∧
    (l.recall * (l.counts.tp + l.counts.fn) = l.counts.tp ∧ (l.counts.tp + l.counts.fn = 0 → l.recall = 0)) ∧
    (l.counts.tp + l.counts.fp ≤ 1000000000 →
      l.f1 * (2 * l.counts.tp + l.counts.fp + l.counts.fn) = 2 * l.counts.tp ∧ (l.counts.tp = 0 → l.f1 = 0)) := by
  unfold computePrecisionRecall at h
  split at h
  · cases h
  · rw [Option.map_eq_some_iff] at h
    obtain ⟨cs, _, rfl⟩ := h
    obtain ⟨row, _, rfl⟩ := List.mem_map.1 hm
    unfold toMetrics at hl
    obtain ⟨c, _, rfl⟩ := List.mem_map.1 hl
    dsimp only
    refine ⟨⟨precision_mul c, fun h0 => ?_⟩, ⟨recall_mul c, fun h0 => ?_⟩, fun hc => ⟨(C16_f1_partial c hc).2.2.2, fun h0 => ?_⟩⟩
    · unfold precision
      rw [if_neg (by omega)]
    · unfold recall
      rw [if_neg (by omega)]
    · unfold f1 precision
      rw [h0]
      simp

example : ∃ ms m l, computePrecisionRecall (Loader.init.addAll sample).rows [0] true 3 none = some ms ∧ m ∈ ms ∧ l ∈ m.labels ∧
    l.counts.tp + l.counts.fp ≤ 1000000000 ∧ l.f1 = 2 / 3 :=
  ⟨[⟨1/3, [⟨⟨1, 1, 0, 0⟩, 1/2, 1, 2/3⟩, ⟨⟨0, 0, 2, 1⟩, 0, 0, 0⟩, ⟨⟨0, 1, 0, 0⟩, 0, 0, 0⟩]⟩], _, ⟨⟨1, 1, 0, 0⟩, 1/2, 1, 2/3⟩, by decide +kernel,
    List.mem_singleton.2 rfl, by simp, by norm_num, rfl⟩

end Verif.Classification
