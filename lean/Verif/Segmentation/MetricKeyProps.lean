import Verif.Segmentation.ReportProps

/-!
# C95 for segmentation: a metric is identified by its type and parameters
-/

namespace Verif.Segmentation

open Verif.Shared

/-- All entries of a report of `compute_precision_recall_iou`. -/
def Report.all (R : Report) : List Metric :=
  R.accuracy ++ R.confusionMatrix ++ R.meanIou ++ R.precision ++ R.recall ++ R.f1 ++ R.iou

/-- **C95 (segmentation).** The report of `compute_precision_recall_iou` holds one accuracy, one confusion matrix, one mean IOU and for each label
one precision, recall, F1 and IOU, and nothing else; no two entries have the same type and label. -/
theorem C95_segmentation (calls : List (List Seg)) (hok : ∀ s ∈ calls.flatten, SegOk s)
    (hs : (calls.flatten.map Seg.size).sum < 2 ^ 64) {tables : List (List SRow)}
    (hp : tables.flatten.Perm (Loader.init.addAll calls).rows.flatten) (hne : (Loader.init.addAll calls).labels ≠ []) :
    let labels := extractLabels (tables.map (fun t => t.map labelCols))
    let names := labels.map Prod.snd
    names.Perm (Loader.init.addAll calls).labels ∧
    ∃ R, (Evaluator.mk tables labels).report none = .ok R ∧
      R.all.map (fun m => (m.type, m.label)) = [("Accuracy", none), ("ConfusionMatrix", none), ("mIOU", none)] ++
        (["Precision", "Recall", "F1", "IOU"].flatMap (fun t => names.map (fun l => (t, some l)))) ∧
      R.all.Pairwise (fun m m' => m.type = m'.type → m.label ≠ m'.label) := by
  intro labels names
  obtain ⟨hperm, R, h, h1, h2, h3, h4, h5, h6, h7⟩ := C65_report calls hok hs hp hne
  have hkeys : R.all.map (fun m => (m.type, m.label)) = [("Accuracy", none), ("ConfusionMatrix", none), ("mIOU", none)] ++
        (["Precision", "Recall", "F1", "IOU"].flatMap (fun t => names.map (fun l => (t, some l)))) := by
    unfold Report.all
    rw [h1, h2, h3, h4, h5, h6, h7]
    simp [names, labels, Function.comp_def]
  refine ⟨hperm, R, h, hkeys, ?_⟩
  have hn : names.Nodup := hperm.nodup_iff.mpr (loaded calls).nodup
  have hnd : (R.all.map (fun m => (m.type, m.label))).Nodup := by
    rw [hkeys]
    have hm : ∀ t : String, (names.map (fun l => (t, some l))).Nodup := fun t => hn.map (fun a b hab => by simpa using hab)
    rw [List.nodup_append]
    refine ⟨by decide, ?_, ?_⟩
    · rw [List.nodup_flatMap]
      refine ⟨fun t _ => hm t, ?_⟩
      have hd : (["Precision", "Recall", "F1", "IOU"] : List String).Nodup := by decide
      refine hd.imp (fun {t t'} hne x hx hx' => ?_)
      obtain ⟨l, _, rfl⟩ := List.mem_map.mp hx
      obtain ⟨l', _, e⟩ := List.mem_map.mp hx'
      exact hne (congrArg Prod.fst e).symm
    · intro x hx y hy e
      subst e
      obtain ⟨t, _, hy⟩ := List.mem_flatMap.mp hy
      obtain ⟨l, _, rfl⟩ := List.mem_map.mp hy
      simp at hx
  rw [List.Nodup, List.pairwise_map] at hnd
  exact hnd.imp (fun hne ht hl => hne (Prod.ext ht hl))

/-- The hypotheses hold for the calls of the sample. -/
example : (∀ s ∈ sampleCalls.flatten, SegOk s) ∧ (sampleCalls.flatten.map Seg.size).sum < 2 ^ 64 ∧ (Loader.init.addAll sampleCalls).labels ≠ [] := by
  refine ⟨?_, by decide, by decide +kernel⟩
  intro s hs
  simp only [sampleCalls, List.flatten_cons, List.flatten_nil, List.cons_append, List.nil_append, List.mem_cons, List.not_mem_nil, or_false] at hs
  rcases hs with rfl | rfl
  · refine ⟨⟨by simp, ?_, by decide⟩, ⟨by simp, by simp [Disjoint], by decide⟩⟩
    unfold Disjoint
    rw [List.map_cons, List.map_cons, List.map_nil, List.pairwise_pair]
    intro x hx
    match x with
    | 0 => exact absurd hx.2 (by decide)
    | 1 => exact absurd hx.1 (by decide)
    | 2 => exact absurd hx.1 (by decide)
    | n + 3 => exact absurd hx.1 (by simp [bit])
  · exact ⟨⟨by simp, by simp [Disjoint], by decide⟩, ⟨by simp, by simp [Disjoint], by decide⟩⟩

end Verif.Segmentation
