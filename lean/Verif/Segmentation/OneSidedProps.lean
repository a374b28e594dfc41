import Verif.Segmentation.ReportProps

/-!
# C108: a label of masks on one side only scores zero (`semantic_segmentation/evaluator.py` 393-430, `semantic_segmentation/computation.py` 50-128)
-/

namespace Verif.Segmentation

open Verif.Shared (extractLabels)

/-- No ground truth mask that was added has the label. -/
def NeverTrue (S : List Seg) (v : String) : Prop := ∀ s ∈ S, ∀ it ∈ s.gts, it.label ≠ v

/-- No predicted mask that was added has the label. -/
def NeverPredicted (S : List Seg) (v : String) : Prop := ∀ s ∈ S, ∀ it ∈ s.pds, it.label ≠ v

theorem total_never {calls : List (List Seg)} {v : String} (h : NeverTrue calls.flatten v) (b : Option String) :
    total calls (fun s => pixelsOf s (some v) b) = 0 := by
  unfold total
  rw [List.sum_eq_zero]
  intro n hn
  obtain ⟨s, hs, rfl⟩ := List.mem_map.1 hn
  unfold pixelsOf
  rw [List.countP_eq_zero]
  intro x _ he
  obtain ⟨it, hit, hl⟩ := itemAt_mem (decide_eq_true_eq.mp he).1
  exact h s hs it hit hl

theorem total_absent {calls : List (List Seg)} {v : String} (h : NeverPredicted calls.flatten v) (a : Option String) :
    total calls (fun s => pixelsOf s a (some v)) = 0 := by
  unfold total
  rw [List.sum_eq_zero]
  intro n hn
  obtain ⟨s, hs, rfl⟩ := List.mem_map.1 hn
  unfold pixelsOf
  rw [List.countP_eq_zero]
  intro x _ he
  obtain ⟨it, hit, hl⟩ := itemAt_mem (decide_eq_true_eq.mp he).2
  exact h s hs it hit hl

/-- **C108 (segmentation).** For every sequence of calls and storage layout: a label that no ground truth mask has, or no predicted mask has, gets
precision, recall, F1 and IoU zero; its row of the confusion matrix is zero in the first case, its column in the second. -/
theorem C108_segmentation (calls : List (List Seg)) (hok : ∀ s ∈ calls.flatten, SegOk s)
    (hs : (calls.flatten.map Seg.size).sum < 2 ^ 64) {tables : List (List SRow)}
    (hp : tables.flatten.Perm (Loader.init.addAll calls).rows.flatten) {v : String} (hmem : v ∈ (Loader.init.addAll calls).labels) :
    let labels := extractLabels (tables.map (fun t => t.map labelCols))
    ∃ R cells fps fns, (Evaluator.mk tables labels).report none = .ok R ∧ R.confusionMatrix = [⟨"ConfusionMatrix", .matrix cells fps fns, none⟩] ∧
      (∃ row ∈ cells, row.1 = v) ∧ (∀ row ∈ cells, ∃ cell ∈ row.2, cell.1 = v) ∧
      (NeverTrue calls.flatten v ∨ NeverPredicted calls.flatten v →
        (∀ a ∈ [("Precision", R.precision), ("Recall", R.recall), ("F1", R.f1), ("IOU", R.iou)],
          ⟨a.1, .number (some 0), some v⟩ ∈ a.2 ∧ ∀ m ∈ a.2, m.label = some v → m.value = .number (some 0))) ∧
      (NeverTrue calls.flatten v → (∀ row ∈ cells, row.1 = v → ∀ cell ∈ row.2, cell.2 = 0) ∧ ∀ x ∈ fns, x.1 = v → x.2 = 0) ∧
      (NeverPredicted calls.flatten v → (∀ row ∈ cells, ∀ cell ∈ row.2, cell.1 = v → cell.2 = 0) ∧ ∀ x ∈ fps, x.1 = v → x.2 = 0) := by
  intro labels
  obtain ⟨hperm, R, r0, _, r2, _, r4, r5, r6, r7⟩ := C65_report calls hok hs hp (List.ne_nil_of_mem hmem)
  beta_reduce at r2 r4 r5 r6 r7
  have hz : ∀ b, ratio 0 b = 0 := by
    intro b
    unfold ratio
    simp
  refine ⟨R, _, _, _, r0, r2, ?_, ?_, ?_, ?_, ?_⟩
  · exact ⟨_, List.mem_map.2 ⟨v, hmem, rfl⟩, rfl⟩
  · intro row hrow
    obtain ⟨g, _, rfl⟩ := List.mem_map.1 hrow
    exact ⟨_, List.mem_map.2 ⟨v, hmem, rfl⟩, rfl⟩
  · intro h
    have hb : total calls (fun s => pixelsOf s (some v) (some v)) = 0 := by
      rcases h with h | h
      · exact total_never h _
      · exact total_absent h _
    obtain ⟨lb, hlb, hlv⟩ := List.mem_map.1 (hperm.mem_iff.2 hmem)
    intro a ha
    simp only [List.mem_cons, List.not_mem_nil, or_false] at ha
    rcases ha with rfl | rfl | rfl | rfl <;> dsimp only
    · rw [r4]
      refine ⟨List.mem_map.2 ⟨lb, hlb, by rw [hlv, hb, hz]⟩, ?_⟩
      intro m hm he
      obtain ⟨y, _, rfl⟩ := List.mem_map.1 hm
      rw [show y.2 = v from Option.some.inj he, hb, hz]
    · rw [r5]
      refine ⟨List.mem_map.2 ⟨lb, hlb, by rw [hlv, hb, hz]⟩, ?_⟩
      intro m hm he
      obtain ⟨y, _, rfl⟩ := List.mem_map.1 hm
      rw [show y.2 = v from Option.some.inj he, hb, hz]
    · rw [r6]
      refine ⟨List.mem_map.2 ⟨lb, hlb, by rw [hlv, hb, mul_zero, hz]⟩, ?_⟩
      intro m hm he
      obtain ⟨y, _, rfl⟩ := List.mem_map.1 hm
      rw [show y.2 = v from Option.some.inj he, hb, mul_zero, hz]
    · rw [r7]
      refine ⟨List.mem_map.2 ⟨lb, hlb, by rw [hlv, hb, hz]⟩, ?_⟩
      intro m hm he
      obtain ⟨y, _, rfl⟩ := List.mem_map.1 hm
      rw [show y.2 = v from Option.some.inj he, hb, hz]
  · intro h
    constructor
    · intro row hrow he cell hcell
      obtain ⟨g, _, rfl⟩ := List.mem_map.1 hrow
      obtain ⟨p, _, rfl⟩ := List.mem_map.1 hcell
      dsimp only at he ⊢
      rw [he, total_never h, hz]
    · intro x hx he
      obtain ⟨g, _, rfl⟩ := List.mem_map.1 hx
      dsimp only at he ⊢
      rw [he, total_never h, hz]
  · intro h
    constructor
    · intro row hrow cell hcell he
      obtain ⟨g, _, rfl⟩ := List.mem_map.1 hrow
      obtain ⟨p, _, rfl⟩ := List.mem_map.1 hcell
      dsimp only at he ⊢
      rw [he, total_absent h, hz]
    · intro x hx he
      obtain ⟨g, _, rfl⟩ := List.mem_map.1 hx
      dsimp only at he ⊢
      rw [he, total_absent h, hz]

/-- The conditions of `C108_segmentation` are met: in the sample dataset "x" is never predicted and "z" is never true. -/
example : NeverPredicted sampleCalls.flatten "x" ∧ NeverTrue sampleCalls.flatten "z" ∧ "x" ∈ (Loader.init.addAll sampleCalls).labels ∧
    "z" ∈ (Loader.init.addAll sampleCalls).labels := by
  refine ⟨?_, ?_, by decide +kernel, by decide +kernel⟩
  · unfold NeverPredicted
    simp [sampleCalls]
  · unfold NeverTrue
    simp [sampleCalls]

end Verif.Segmentation
