import Verif.Detection.OneMoreProps
import Verif.Detection.ReportMetrics
import Verif.Segmentation.BetweenProps

/-! # C131: a dataset scores between its parts (`object_detection/computation.py` 332-567) -/

namespace Verif.Detection

open Verif.Segmentation (ratio ratio_sum_between)

theorem recall_eq_ratio (a n : Nat) : recall a n = ratio a n := by
  unfold recall ratio
  by_cases h : n = 0
  · rw [if_pos h, if_neg (by omega)]
  · rw [if_neg h, if_pos (by omega)]

theorem recall_between {α : Type} {l : List α} {a b : α → Nat} (hab : ∀ x ∈ l, a x ≤ b x) (h0 : 0 < (l.map b).sum) {lo hi : Rat}
    (h : ∀ x ∈ l, 0 < b x → lo ≤ recall (a x) (b x) ∧ recall (a x) (b x) ≤ hi) : lo ≤ recall (l.map a).sum (l.map b).sum ∧ recall (l.map a).sum (l.map b).sum ≤ hi := by
  rw [recall_eq_ratio]
  exact ratio_sum_between hab (fun x hx hb => by rw [← recall_eq_ratio]; exact h x hx (Nat.pos_of_ne_zero hb)) fun hz => by omega

/-- **C131 (detection).** The detections of a dataset are evaluated as a whole and in parts, each with its own evaluator: at all thresholds, the precision of
a label in the whole lies in every interval that holds those of the parts with predictions that count for the label, and the recall in every interval that
holds those of the parts with ground truths of the label. -/
theorem C131_detection (whole : Built) (shards : List Built) (hp : whole.calls.flatten.Perm (shards.map (fun e => e.calls.flatten)).flatten)
    (hH : HistoryOk whole.calls.flatten) (hS : SizesOk (Loader.init.addAll whole.calls)) (t s : Rat) (v : String) (lo hi : Rat) :
    (0 < whole.tp t s v + whole.fp t s v →
      (∀ e ∈ shards, 0 < e.tp t s v + e.fp t s v → lo ≤ precision (e.tp t s v) (e.fp t s v) ∧ precision (e.tp t s v) (e.fp t s v) ≤ hi) →
      lo ≤ precision (whole.tp t s v) (whole.fp t s v) ∧ precision (whole.tp t s v) (whole.fp t s v) ≤ hi) ∧
    (0 < whole.gt v → (∀ e ∈ shards, 0 < e.gt v → lo ≤ recall (e.tp t s v) (e.gt v) ∧ recall (e.tp t s v) (e.gt v) ≤ hi) →
      lo ≤ recall (whole.tp t s v) (whole.gt v) ∧ recall (whole.tp t s v) (whole.gt v) ≤ hi) := by
  obtain ⟨c1, c2, c3, _⟩ := C84_detection_counts whole shards hp hH hS t s v
  constructor
  · intro h0 h
    rw [c2, c3, ← sum_map_add] at h0
    rw [precision_recall, c2, c3, ← sum_map_add]
    exact recall_between (fun e _ => Nat.le_add_right _ _) h0 h
  · intro h0 h
    rw [c1] at h0
    rw [c1, c2]
    refine recall_between (fun e he => ?_) h0 h
    obtain ⟨k1, k2⟩ := shard_ok hp hH hS he
    have := e.fn_eq k1 k2 t s v
    omega

/-- **C131 (detection, F1).** With fewer than 10^9 predictions that count for the label: F1 of the label in the whole lies in every interval that holds those
of the parts with ground truths of the label or predictions that count for it. Missing: beyond that, the code reports 0 for a small F1
(`C60_f1_violation`). -/
theorem C131_detection_f1_partial (whole : Built) (shards : List Built) (hp : whole.calls.flatten.Perm (shards.map (fun e => e.calls.flatten)).flatten)
    (hH : HistoryOk whole.calls.flatten) (hS : SizesOk (Loader.init.addAll whole.calls)) (t s : Rat) (v : String) (lo hi : Rat)
    (hsize : whole.tp t s v + whole.fp t s v < 1000000000) (h0 : 0 < whole.tp t s v + whole.fp t s v + whole.gt v)
    (h : ∀ e ∈ shards, 0 < e.tp t s v + e.fp t s v + e.gt v →
      lo ≤ f1 (precision (e.tp t s v) (e.fp t s v)) (recall (e.tp t s v) (e.gt v)) ∧
      f1 (precision (e.tp t s v) (e.fp t s v)) (recall (e.tp t s v) (e.gt v)) ≤ hi) :
    lo ≤ f1 (precision (whole.tp t s v) (whole.fp t s v)) (recall (whole.tp t s v) (whole.gt v)) ∧
    f1 (precision (whole.tp t s v) (whole.fp t s v)) (recall (whole.tp t s v) (whole.gt v)) ≤ hi := by
  obtain ⟨c1, c2, c3, _⟩ := C84_detection_counts whole shards hp hH hS t s v
  have hle : ∀ e ∈ shards, e.tp t s v ≤ e.gt v := by
    intro e he
    obtain ⟨k1, k2⟩ := shard_ok hp hH hS he
    have := e.fn_eq k1 k2 t s v
    omega
  have hlw : whole.tp t s v ≤ whole.gt v := by
    rw [c1, c2]
    exact List.sum_le_sum hle
  have hval : ∀ a b n : Nat, a ≤ n → a + b < 1000000000 → f1 (precision a b) (recall a n) = ratio (a + a) (a + b + n) := by
    intro a b n h1 h2
    rw [f1_eq h1 h2]
    unfold ratio
    split
    · rename_i hz
      have : a = 0 := by omega
      subst this
      simp
    · push_cast
      rw [two_mul]
  have hbe : ∀ e ∈ shards, e.tp t s v + e.fp t s v < 1000000000 := by
    intro e he
    have k1 := List.le_sum_of_mem (List.mem_map_of_mem (f := fun e : Built => e.tp t s v) he)
    have k2 := List.le_sum_of_mem (List.mem_map_of_mem (f := fun e : Built => e.fp t s v) he)
    omega
  rw [hval _ _ _ hlw hsize]
  rw [c1, c2, c3, ← sum_map_add, ← sum_map_add] at h0 ⊢
  rw [← sum_map_add]
  refine ratio_sum_between (fun e he => ?_) (fun e he hne => ?_) fun hz => by omega
  · have := hle e he
    omega
  · have := h e he (Nat.pos_of_ne_zero hne)
    rwa [hval _ _ _ (hle e he) (hbe e he)] at this

/-- The hypotheses hold for a cat that is found and a cat that is not, evaluated together and apart. -/
example : ∃ whole e1 e2 : Built, whole.calls.flatten.Perm ([e1, e2].map (fun e => e.calls.flatten)).flatten ∧ HistoryOk whole.calls.flatten ∧
    SizesOk (Loader.init.addAll whole.calls) ∧ 0 < whole.gt "cat" ∧ whole.tp (1 / 2) 0 "cat" + whole.fp (1 / 2) 0 "cat" < 1000000000 := by
  obtain ⟨e1, h1⟩ := built_exists [[tieDet]]
  obtain ⟨e2, h2⟩ := built_exists [[oneCat 0]]
  obtain ⟨e, h⟩ := built_exists [[tieDet, oneCat 0]]
  have f : e.calls.flatten = [tieDet, oneCat 0] := by rw [h]; rfl
  have k := oneCat_ok (o := 0) (by norm_num)
  have hS : SizesOk (Loader.init.addAll e.calls) := by
    rw [h]
    exact ⟨by decide +kernel, by decide +kernel, by decide +kernel, by decide +kernel⟩
  refine ⟨e, e1, e2, by simp [h, h1, h2], f ▸ k.1, hS, ?_, ?_⟩
  · rw [(C54_exact e (f ▸ k.1) (f ▸ k.2) hS 0 0 "cat").1, f]
    decide +kernel
  · rw [(C54_exact e (f ▸ k.1) (f ▸ k.2) hS (1 / 2) 0 "cat").2.1, f]
    have hle : ∀ x : Det × (Nat → Nat → Rat), pdCount x 0 "cat" ≤ x.1.pds.length := fun x => by
      unfold pdCount
      exact (List.length_filter_le _ _).trans (List.length_range.le)
    have h1 := hle tieDet
    have h2 := hle (oneCat 0)
    have h3 : tieDet.1.pds.length + (oneCat 0).1.pds.length < 1000000000 := by decide +kernel
    simp only [List.map_cons, List.map_nil, List.sum_cons, List.sum_nil]
    omega

end Verif.Detection
