import Verif.Classification.OneMoreProps
import Verif.Classification.ThresholdProps
import Verif.Segmentation.BetweenProps

/-! # C131: a dataset scores between its parts (`classification/computation.py` 89-233) -/

namespace Verif.Classification

open Verif.Segmentation (ratio_sum_between ratio_sums)

local notation "quot" => Verif.Segmentation.ratio

/-- The counts of the parts add up. -/
theorem split_counts {whole : Built} {shards : List Built} (h : Split whole shards) (t : Rat) (hm : Bool) (v : String) :
    specTP (history whole.calls) t hm v = (shards.map (fun e => specTP (history e.calls) t hm v)).sum ∧
    specFP (history whole.calls) t hm v = (shards.map (fun e => specFP (history e.calls) t hm v)).sum ∧
    specFN (history whole.calls) t hm v = (shards.map (fun e => specFN (history e.calls) t hm v)).sum := by
  have e1 := congrFun (congrFun (countsOf_perm h hm) t) v
  rw [countsOf_flatten, List.map_map] at e1
  have key : ∀ l : List Built, addUp (l.map ((fun l => countsOf l hm t v) ∘ fun e => history e.calls)) =
      ⟨(l.map (fun e => specTP (history e.calls) t hm v)).sum, (l.map (fun e => specFP (history e.calls) t hm v)).sum,
        (l.map (fun e => specFN (history e.calls) t hm v)).sum, (l.map (fun e => specTN (history e.calls) t hm v)).sum⟩ := by
    intro l
    induction l with
    | nil => rfl
    | cons e l ih =>
      unfold addUp at ih ⊢
      rw [List.map_cons, List.foldr_cons, ih]
      rfl
  rw [key] at e1
  simp only [countsOf, Counts.mk.injEq] at e1
  exact ⟨e1.1, e1.2.1, e1.2.2.1⟩

theorem sum_map_add {α : Type} (l : List α) (f g : α → Nat) : (l.map f).sum + (l.map g).sum = (l.map (fun x => f x + g x)).sum := by
  induction l with
  | nil => rfl
  | cons x l ih => simp only [List.map_cons, List.sum_cons]; omega

/-- Every label of the whole is a label of some part. -/
theorem split_label {whole : Built} {shards : List Built} (h : Split whole shards) {v : String} (hv : v ∈ whole.labels) : ∃ e ∈ shards, v ∈ e.labels := by
  obtain ⟨c, hc, hcv⟩ := (linv_reach whole.calls).onlyUsed v hv
  obtain ⟨l, hl, hcl⟩ := List.mem_flatten.1 (List.Perm.mem_iff h |>.1 hc)
  obtain ⟨e, he, rfl⟩ := List.mem_map.1 hl
  obtain ⟨h1, h2⟩ := covers_reach e.calls e.valid c hcl
  rcases hcv with rfl | hcv
  · exact ⟨e, he, h1⟩
  · exact ⟨e, he, h2 v hcv⟩

/-- **C131 (classification).** The classifications of a dataset are evaluated as a whole and in parts, each with its own evaluator: precision and recall of
a label in the whole lie in every interval that holds those of the parts that have the label. -/
theorem C131_classification {whole : Built} {shards : List Built} (h : Split whole shards) (hL : whole.labels.length ≤ 100000) (t : Rat) (hm : Bool)
    (v : String) (lo hi : Rat) {x : LabelMetrics} (hx : whole.metricsOf t hm v = some x) :
    ((∀ e ∈ shards, ∀ y, e.metricsOf t hm v = some y → lo ≤ y.precision ∧ y.precision ≤ hi) → lo ≤ x.precision ∧ x.precision ≤ hi) ∧
    ((∀ e ∈ shards, ∀ y, e.metricsOf t hm v = some y → lo ≤ y.recall ∧ y.recall ≤ hi) → lo ≤ x.recall ∧ x.recall ≤ hi) := by
  have hLe : ∀ e ∈ shards, e.labels.length ≤ 100000 := fun e he => labels_bound e whole (h.sub he) hL
  have hsome : ∀ e ∈ shards, v ∈ e.labels → ∃ y, e.metricsOf t hm v = some y := fun e he hv => by
    rw [e.metricsOf_eq (hLe e he), if_pos hv]
    exact ⟨_, rfl⟩
  have hzero : ∀ e : Built, v ∉ e.labels → specTP (history e.calls) t hm v = 0 ∧ specFP (history e.calls) t hm v = 0 ∧ specFN (history e.calls) t hm v = 0 := by
    intro e hv
    have := countsOf_zero (covers_reach e.calls e.valid) hm t hv
    simp only [countsOf, Counts.zero, Counts.mk.injEq] at this
    exact ⟨this.1, this.2.1, this.2.2.1⟩
  have hv : v ∈ whole.labels := by
    by_contra hv
    rw [whole.metricsOf_eq hL, if_neg hv] at hx
    cases hx
  obtain ⟨e0, he0, hv0⟩ := split_label h hv
  obtain ⟨c1, c2, c3⟩ := split_counts h t hm v
  obtain ⟨p1, r1, _⟩ := whole.label_metrics hL hx
  refine ⟨fun hin => ?_, fun hin => ?_⟩
  · rw [p1, c1, c2, sum_map_add]
    refine ratio_sum_between (fun e _ => Nat.le_add_right _ _) (fun e he hne => ?_) fun h0 => ?_
    · by_cases hve : v ∈ e.labels
      · obtain ⟨y, hy⟩ := hsome e he hve
        have := hin e he y hy
        rw [(e.label_metrics (hLe e he) hy).1] at this
        exact this
      · obtain ⟨z1, z2, _⟩ := hzero e hve
        omega
    · obtain ⟨y, hy⟩ := hsome e0 he0 hv0
      have := hin e0 he0 y hy
      have hz := List.le_sum_of_mem (List.mem_map_of_mem (f := fun e : Built => specTP (history e.calls) t hm v + specFP (history e.calls) t hm v) he0)
      rw [h0] at hz
      rw [(e0.label_metrics (hLe e0 he0) hy).1, Nat.le_zero.1 hz] at this
      unfold Verif.Segmentation.ratio at this
      rw [if_pos rfl] at this
      exact this
  · rw [r1, c1, c3, sum_map_add]
    refine ratio_sum_between (fun e _ => Nat.le_add_right _ _) (fun e he hne => ?_) fun h0 => ?_
    · by_cases hve : v ∈ e.labels
      · obtain ⟨y, hy⟩ := hsome e he hve
        have := hin e he y hy
        rw [(e.label_metrics (hLe e he) hy).2.1] at this
        exact this
      · obtain ⟨z1, _, z3⟩ := hzero e hve
        omega
    · obtain ⟨y, hy⟩ := hsome e0 he0 hv0
      have := hin e0 he0 y hy
      have hz := List.le_sum_of_mem (List.mem_map_of_mem (f := fun e : Built => specTP (history e.calls) t hm v + specFN (history e.calls) t hm v) he0)
      rw [h0] at hz
      rw [(e0.label_metrics (hLe e0 he0) hy).2.1, Nat.le_zero.1 hz] at this
      unfold Verif.Segmentation.ratio at this
      rw [if_pos rfl] at this
      exact this

/-- F1 is a quotient of counts, when the label was predicted at most 10^9 times. -/
theorem Built.f1_value (e : Built) (hL : e.labels.length ≤ 100000) {t : Rat} {hm : Bool} {v : String} {x : LabelMetrics} (h : e.metricsOf t hm v = some x)
    (hb : specTP (history e.calls) t hm v + specFP (history e.calls) t hm v ≤ 1000000000) :
    x.f1 = quot (2 * specTP (history e.calls) t hm v)
      (2 * specTP (history e.calls) t hm v + (specFP (history e.calls) t hm v + specFN (history e.calls) t hm v)) := by
  rw [e.metricsOf_eq hL] at h
  split at h
  · obtain rfl := Option.some.inj h
    have h4 := (C16_f1_partial (countsOf (history e.calls) hm t v) hb).2.2.2
    simp only [countsOf] at h4 ⊢
    unfold Verif.Segmentation.ratio
    split
    · rename_i h0
      have z1 : specTP (history e.calls) t hm v = 0 := by omega
      have z2 : specFP (history e.calls) t hm v = 0 := by omega
      have z3 : specFN (history e.calls) t hm v = 0 := by omega
      rw [z1, z2, z3]
      simp [f1, precision, recall]
    · rename_i h0
      rw [eq_div_iff (by exact_mod_cast h0)]
      push_cast
      rw [← add_assoc]
      exact h4
  · cases h

/-- **C131 (classification, F1).** With at most 10^9 predictions in the dataset: F1 of a label in the whole lies in every interval that holds those of the
parts that have the label. Missing: beyond that, the code reports 0 for a small F1 (C16). -/
theorem C131_classification_f1_partial {whole : Built} {shards : List Built} (h : Split whole shards) (hL : whole.labels.length ≤ 100000)
    (hsize : ((history whole.calls).map (fun c => c.preds.length)).sum ≤ 1000000000) (t : Rat) (hm : Bool)
    (v : String) (lo hi : Rat) {x : LabelMetrics} (hx : whole.metricsOf t hm v = some x)
    (hin : ∀ e ∈ shards, ∀ y, e.metricsOf t hm v = some y → lo ≤ y.f1 ∧ y.f1 ≤ hi) : lo ≤ x.f1 ∧ x.f1 ≤ hi := by
  have hLe : ∀ e ∈ shards, e.labels.length ≤ 100000 := fun e he => labels_bound e whole (h.sub he) hL
  have hsome : ∀ e ∈ shards, v ∈ e.labels → ∃ y, e.metricsOf t hm v = some y := fun e he hv => by
    rw [e.metricsOf_eq (hLe e he), if_pos hv]
    exact ⟨_, rfl⟩
  have hzero : ∀ e : Built, v ∉ e.labels → specTP (history e.calls) t hm v = 0 ∧ specFP (history e.calls) t hm v = 0 ∧ specFN (history e.calls) t hm v = 0 := by
    intro e hv
    have := countsOf_zero (covers_reach e.calls e.valid) hm t hv
    simp only [countsOf, Counts.zero, Counts.mk.injEq] at this
    exact ⟨this.1, this.2.1, this.2.2.1⟩
  have hv : v ∈ whole.labels := by
    by_contra hv
    rw [whole.metricsOf_eq hL, if_neg hv] at hx
    cases hx
  obtain ⟨e0, he0, hv0⟩ := split_label h hv
  obtain ⟨c1, c2, c3⟩ := split_counts h t hm v
  have hw : specTP (history whole.calls) t hm v + specFP (history whole.calls) t hm v ≤ 1000000000 := (spec_le _ t hm v).trans hsize
  have hbe : ∀ e ∈ shards, specTP (history e.calls) t hm v + specFP (history e.calls) t hm v ≤ 1000000000 := by
    intro e he
    have k1 := List.le_sum_of_mem (List.mem_map_of_mem (f := fun e : Built => specTP (history e.calls) t hm v) he)
    have k2 := List.le_sum_of_mem (List.mem_map_of_mem (f := fun e : Built => specFP (history e.calls) t hm v) he)
    omega
  rw [whole.f1_value hL hx hw, c1, c2, c3, two_mul, sum_map_add, sum_map_add, sum_map_add]
  have hval : ∀ e ∈ shards, v ∈ e.labels → lo ≤ quot (specTP (history e.calls) t hm v + specTP (history e.calls) t hm v)
      (specTP (history e.calls) t hm v + specTP (history e.calls) t hm v + (specFP (history e.calls) t hm v + specFN (history e.calls) t hm v)) ∧
      quot (specTP (history e.calls) t hm v + specTP (history e.calls) t hm v)
      (specTP (history e.calls) t hm v + specTP (history e.calls) t hm v + (specFP (history e.calls) t hm v + specFN (history e.calls) t hm v)) ≤ hi := by
    intro e he hve
    obtain ⟨y, hy⟩ := hsome e he hve
    have := hin e he y hy
    rw [e.f1_value (hLe e he) hy (hbe e he), two_mul] at this
    exact this
  refine ratio_sum_between (fun e _ => Nat.le_add_right _ _) (fun e he hne => ?_) fun h0 => ?_
  · by_cases hve : v ∈ e.labels
    · exact hval e he hve
    · obtain ⟨z1, z2, z3⟩ := hzero e hve
      omega
  · have := hval e0 he0 hv0
    have hz := List.le_sum_of_mem (List.mem_map_of_mem (f := fun e : Built => specTP (history e.calls) t hm v + specTP (history e.calls) t hm v + (specFP (history e.calls) t hm v + specFN (history e.calls) t hm v)) he0)
    rw [h0] at hz
    rw [Nat.le_zero.1 hz] at this
    unfold Verif.Segmentation.ratio at this
    rw [if_pos rfl] at this
    exact this

/-- **C131 (classification, accuracy).** The accuracy of the whole lies in every interval that holds the accuracies of the parts. -/
theorem C131_classification_accuracy {whole : Built} {shards : List Built} (h : Split whole shards) (hne : shards ≠ []) (hL : whole.labels.length ≤ 100000)
    (t : Rat) (hm : Bool) (lo hi : Rat) (hin : ∀ e ∈ shards, ∀ m, e.metrics t hm = some m → lo ≤ m.accuracy ∧ m.accuracy ≤ hi) :
    ∃ m, whole.metrics t hm = some m ∧ lo ≤ m.accuracy ∧ m.accuracy ≤ hi := by
  have hLe : ∀ e ∈ shards, e.labels.length ≤ 100000 := fun e he => labels_bound e whole (h.sub he) hL
  have hpart : ∀ e ∈ shards, lo ≤ quot ((history e.calls).map (fun c => specTP [c] t hm c.gt)).sum (history e.calls).length ∧
      quot ((history e.calls).map (fun c => specTP [c] t hm c.gt)).sum (history e.calls).length ≤ hi := by
    intro e he
    have := hin e he _ (e.metrics_eq (hLe e he) t hm)
    rw [e.accuracy_value (hLe e he) (e.metrics_eq (hLe e he) t hm)] at this
    exact this
  refine ⟨_, whole.metrics_eq hL t hm, ?_⟩
  rw [whole.accuracy_value hL (whole.metrics_eq hL t hm), (List.Perm.map _ h).sum_eq, List.Perm.length_eq h, sum_flatten_map, List.length_flatten, List.map_map,
    List.map_map]
  refine ratio_sums (a := fun e : Built => ((history e.calls).map (fun c => specTP [c] t hm c.gt)).sum) (b := fun e : Built => (history e.calls).length)
    (fun e _ h0 => ?_) (fun e he _ => hpart e he) fun h0 => ?_
  · rw [List.length_eq_zero_iff.1 h0]
    rfl
  · obtain ⟨e, he⟩ := List.exists_mem_of_ne_nil _ hne
    have := hpart e he
    have hz := List.le_sum_of_mem (List.mem_map_of_mem (f := fun e : Built => (history e.calls).length) he)
    rw [h0] at hz
    rw [Nat.le_zero.1 hz] at this
    unfold Verif.Segmentation.ratio at this
    rw [if_pos rfl] at this
    exact this

/-- A cat that is found. -/
def foundCat : List (List Classif) := [[⟨"a", "cat", ["cat", "dog"], [9/10, 1/10], ""⟩]]

/-- A cat that is not found. -/
def lostCat : List (List Classif) := [[⟨"b", "cat", ["cat", "dog"], [1/10, 9/10], ""⟩]]

theorem foundCat_metrics : computePrecisionRecall (Loader.init.addAll foundCat).rows [1 / 2] true (Loader.init.addAll foundCat).labels.length none
    = some [⟨1, [⟨⟨1, 0, 0, 0⟩, 1, 1, 1⟩, ⟨⟨0, 0, 0, 1⟩, 0, 0, 0⟩]⟩] := by decide +kernel

theorem lostCat_metrics : computePrecisionRecall (Loader.init.addAll lostCat).rows [1 / 2] true (Loader.init.addAll lostCat).labels.length none
    = some [⟨0, [⟨⟨0, 0, 1, 0⟩, 0, 0, 0⟩, ⟨⟨0, 1, 0, 0⟩, 0, 0, 0⟩]⟩] := by decide +kernel

theorem bothCats_metrics : computePrecisionRecall (Loader.init.addAll [foundCat.flatten ++ lostCat.flatten]).rows [1 / 2] true (Loader.init.addAll [foundCat.flatten ++ lostCat.flatten]).labels.length none
    = some [⟨1 / 2, [⟨⟨1, 0, 1, 0⟩, 1, 1 / 2, 2 / 3⟩, ⟨⟨0, 1, 0, 1⟩, 0, 0, 0⟩]⟩] := by decide +kernel

/-- The hypotheses hold for a cat that is found and a cat that is not, evaluated together and apart. -/
example : ∃ whole e1 e2 : Built, Split whole [e1, e2] ∧ whole.labels.length ≤ 100000 ∧ ((history whole.calls).map (fun c => c.preds.length)).sum ≤ 1000000000 ∧
    (∃ m, e1.metrics (1 / 2) true = some m ∧ m.accuracy = 1) ∧ (∃ m, e2.metrics (1 / 2) true = some m ∧ m.accuracy = 0) ∧
    (∃ m, whole.metrics (1 / 2) true = some m ∧ m.accuracy = 1 / 2) ∧ ∃ x, whole.metricsOf (1 / 2) true "cat" = some x ∧ x.recall = 1 / 2 := by
  refine ⟨⟨[foundCat.flatten ++ lostCat.flatten], by decide +kernel, (Loader.init.addAll [foundCat.flatten ++ lostCat.flatten]).rows, ⟨List.Perm.refl _, by decide +kernel⟩⟩,
    ⟨foundCat, by decide +kernel, (Loader.init.addAll foundCat).rows, ⟨List.Perm.refl _, by decide +kernel⟩⟩,
    ⟨lostCat, by decide +kernel, (Loader.init.addAll lostCat).rows, ⟨List.Perm.refl _, by decide +kernel⟩⟩,
    by unfold Split; decide +kernel, by unfold Built.labels; decide +kernel, by decide +kernel, ?_, ?_, ?_, ?_⟩
  · exact ⟨⟨1, [⟨⟨1, 0, 0, 0⟩, 1, 1, 1⟩, ⟨⟨0, 0, 0, 1⟩, 0, 0, 0⟩]⟩, by unfold Built.metrics Built.labels; dsimp only; rw [foundCat_metrics]; rfl, rfl⟩
  · exact ⟨⟨0, [⟨⟨0, 0, 1, 0⟩, 0, 0, 0⟩, ⟨⟨0, 1, 0, 0⟩, 0, 0, 0⟩]⟩, by unfold Built.metrics Built.labels; dsimp only; rw [lostCat_metrics]; rfl, rfl⟩
  · exact ⟨⟨1 / 2, [⟨⟨1, 0, 1, 0⟩, 1, 1 / 2, 2 / 3⟩, ⟨⟨0, 1, 0, 1⟩, 0, 0, 0⟩]⟩, by unfold Built.metrics Built.labels; dsimp only; rw [bothCats_metrics]; rfl, rfl⟩
  · exact ⟨⟨⟨1, 0, 1, 0⟩, 1, 1 / 2, 2 / 3⟩, by unfold Built.metricsOf Built.metrics Built.labels; dsimp only; rw [bothCats_metrics]; decide +kernel, rfl⟩

end Verif.Classification
