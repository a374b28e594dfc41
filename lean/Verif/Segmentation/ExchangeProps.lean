import Verif.Segmentation.ShardProps

/-! # C104: exchanging ground truths and predictions of segmentations -/

namespace Verif.Segmentation

open Verif.Shared

/-- The image with its ground truths as predictions and its predictions as ground truths. -/
def Seg.exchanged (s : Seg) : Seg := { s with gts := s.pds, pds := s.gts }

/-- The metric under another type. -/
def Metric.retyped (t : String) (m : Metric) : Metric := { m with type := t }

theorem total_exchanged {calls calls' : List (List Seg)} (h : calls'.flatten.Perm (calls.flatten.map Seg.exchanged)) (f : Seg → Nat) :
    total calls' f = total calls (fun s => f s.exchanged) := by
  unfold total
  rw [(h.map f).sum_eq, List.map_map]
  rfl

theorem pixels_exchanged (s : Seg) (a b : Option String) : pixelsOf s.exchanged a b = pixelsOf s b a := by
  unfold pixelsOf Seg.exchanged
  apply List.countP_congr
  intro x _
  simp only [and_comm]

theorem agree_exchanged (s : Seg) :
    (List.range s.exchanged.size).countP (fun x => decide (itemAt s.exchanged.gts x = itemAt s.exchanged.pds x)) =
      (List.range s.size).countP (fun x => decide (itemAt s.gts x = itemAt s.pds x)) := by
  unfold Seg.exchanged
  apply List.countP_congr
  intro x _
  simp only [eq_comm]

theorem labels_exchanged {e e' : Built} (h : e'.calls.flatten.Perm (e.calls.flatten.map Seg.exchanged)) : e'.labels.Perm e.labels := by
  refine (List.perm_ext_iff_of_nodup (C38_labels e'.calls).1 (C38_labels e.calls).1).2 ?_
  intro v
  rw [(C38_labels e'.calls).2, (C38_labels e.calls).2]
  simp only [h.mem_iff, List.mem_map]
  constructor
  · rintro ⟨_, ⟨s, hs, rfl⟩, x, hx, hv⟩
    exact ⟨s, hs, x, List.mem_append.2 (List.mem_append.1 hx).symm, hv⟩
  · rintro ⟨s, hs, x, hx, hv⟩
    exact ⟨_, ⟨s, hs, rfl⟩, x, List.mem_append.2 (List.mem_append.1 hx).symm, hv⟩

/-- **C104.** The same images with the masks of the two sides exchanged, added in any order and calls and stored in any division:
accuracy and mean IoU stay the same, and so do F1 and IoU of every label; precision and recall of every label change places. The
confusion matrix is transposed, and the two lists of background shares change places. -/
theorem C104_exchanged {e e' : Built} (h : e'.calls.flatten.Perm (e.calls.flatten.map Seg.exchanged))
    (hok : ∀ s ∈ e.calls.flatten, SegOk s) (hs : (e.calls.flatten.map Seg.size).sum < 2 ^ 64) (hne : e.labels ≠ []) :
    ∃ R R', e.report = .ok R ∧ e'.report = .ok R' ∧
      R'.accuracy = R.accuracy ∧ R'.meanIou = R.meanIou ∧
      R'.precision.Perm (R.recall.map (Metric.retyped "Precision")) ∧ R'.recall.Perm (R.precision.map (Metric.retyped "Recall")) ∧
      R'.f1.Perm R.f1 ∧ R'.iou.Perm R.iou ∧
      ∃ m a b m' a' b', R.confusionMatrix = [⟨"ConfusionMatrix", .matrix m a b, none⟩] ∧
        R'.confusionMatrix = [⟨"ConfusionMatrix", .matrix m' a' b', none⟩] ∧
        (∀ g p, cellOf m' g p = cellOf m p g) ∧ (∀ v, a'.lookup v = b.lookup v) ∧ ∀ v, b'.lookup v = a.lookup v := by
  have hl := labels_exchanged h
  have hne' : e'.labels ≠ [] := by
    intro e0
    rw [e0] at hl
    exact hne hl.nil_eq.symm
  have hok' : ∀ s ∈ e'.calls.flatten, SegOk s := by
    intro s hsm
    obtain ⟨s0, hs0, rfl⟩ := List.mem_map.1 (h.mem_iff.1 hsm)
    exact ⟨(hok s0 hs0).pds, (hok s0 hs0).gts⟩
  have hs' : (e'.calls.flatten.map Seg.size).sum < 2 ^ 64 := by
    rw [(h.map Seg.size).sum_eq, List.map_map]
    exact hs
  have hpix : ∀ a b, total e'.calls (fun s => pixelsOf s a b) = total e.calls (fun s => pixelsOf s b a) := by
    intro a b
    rw [total_exchanged h]
    simp only [pixels_exchanged]
  have hgt : ∀ a, total e'.calls (fun s => gtPixelsOf s a) = total e.calls (fun s => pdPixelsOf s a) := fun a => total_exchanged h _
  have hpd : ∀ a, total e'.calls (fun s => pdPixelsOf s a) = total e.calls (fun s => gtPixelsOf s a) := fun a => total_exchanged h _
  have hsize : total e'.calls Seg.size = total e.calls Seg.size := total_exchanged h _
  have hacc : total e'.calls (fun s => (List.range s.size).countP (fun x => decide (itemAt s.gts x = itemAt s.pds x))) =
      total e.calls (fun s => (List.range s.size).countP (fun x => decide (itemAt s.gts x = itemAt s.pds x))) := by
    rw [total_exchanged h]
    simp only [agree_exchanged]
  obtain ⟨n1, R, e1, a1, c1, m1, p1, r1, f1, i1⟩ := C65_report e.calls hok hs e.stored hne
  obtain ⟨n2, R', e2, a2, c2, m2, p2, r2, f2, i2⟩ := C65_report e'.calls hok' hs' e'.stored hne'
  unfold Built.labels at hl
  have hnames := n2.trans (hl.trans n1.symm)
  have hlist : ∀ F : String → Metric, ((extractLabels (e'.tables.map (fun t => t.map labelCols))).map (fun x => F x.2)).Perm
      ((extractLabels (e.tables.map (fun t => t.map labelCols))).map (fun x => F x.2)) := by
    intro F
    have := hnames.map F
    simpa only [List.map_map, Function.comp_def] using this
  simp only [hpix, hgt, hpd] at c2 m2 p2 r2 f2 i2
  refine ⟨R, R', e1, e2, by rw [a1, a2, hacc, hsize], ?_, ?_, ?_, ?_, ?_, _, _, _, _, _, _, c1, c2, ?_, ?_, ?_⟩
  · rw [m1, m2, (hl.map _).sum_eq, hl.length_eq]
    simp only [Nat.add_comm]
  · rw [p2, r1, List.map_map]
    exact hlist (fun v => ⟨"Precision", .number (some (ratio (total e.calls (fun s => pixelsOf s (some v) (some v))) (total e.calls (fun s => gtPixelsOf s (some v))))), some v⟩)
  · rw [r2, p1, List.map_map]
    exact hlist (fun v => ⟨"Recall", .number (some (ratio (total e.calls (fun s => pixelsOf s (some v) (some v))) (total e.calls (fun s => pdPixelsOf s (some v))))), some v⟩)
  · rw [f1, f2]
    simp only [fun v => Nat.add_comm (total e.calls (fun s => pdPixelsOf s v))]
    exact hlist (fun v => ⟨"F1", .number (some (ratio (2 * (total e.calls (fun s => pixelsOf s (some v) (some v)))) ((total e.calls (fun s => gtPixelsOf s (some v))) + (total e.calls (fun s => pdPixelsOf s (some v)))))), some v⟩)
  · rw [i1, i2]
    simp only [fun v => Nat.add_comm (total e.calls (fun s => pdPixelsOf s v))]
    exact hlist (fun v => ⟨"IOU", .number (some (ratio (total e.calls (fun s => pixelsOf s (some v) (some v))) ((total e.calls (fun s => gtPixelsOf s (some v))) + (total e.calls (fun s => pdPixelsOf s (some v))) - (total e.calls (fun s => pixelsOf s (some v) (some v)))))), some v⟩)
  · intro g p
    rw [cellOf_names, cellOf_names]
    simp only [hl.mem_iff, and_comm, Nat.add_comm]
  · intro v
    rw [lookup_names, lookup_names]
    simp only [hl.mem_iff]
  · intro v
    rw [lookup_names, lookup_names]
    simp only [hl.mem_iff]

/-- The sample meets the hypotheses. Its precisions and recalls differ. -/
example : ∃ e e' : Built, e'.calls.flatten.Perm (e.calls.flatten.map Seg.exchanged) ∧ e.calls = sampleCalls ∧ e.labels ≠ [] ∧
    ∃ R, (Evaluator.mk [(Loader.init.addAll sampleCalls).rows.flatten]
      (extractLabels ([(Loader.init.addAll sampleCalls).rows.flatten].map (fun t => t.map labelCols)))).report none = .ok R ∧
      R.precision.map Metric.value ≠ R.recall.map Metric.value := by
  refine ⟨⟨sampleCalls, _, List.Perm.refl _⟩, ⟨sampleCalls.map (List.map Seg.exchanged), _, List.Perm.refl _⟩, by rw [← List.map_flatten], rfl,
    by decide +kernel, ?_⟩
  have : ((Evaluator.mk [(Loader.init.addAll sampleCalls).rows.flatten]
      (extractLabels ([(Loader.init.addAll sampleCalls).rows.flatten].map (fun t => t.map labelCols)))).report none).toOption.any
        (fun R => decide (R.precision.map Metric.value ≠ R.recall.map Metric.value)) = true := by decide +kernel
  generalize (Evaluator.mk _ _).report none = r at this
  cases r with
  | error _ => cases this
  | ok R => exact ⟨R, rfl, by simpa [Except.toOption] using this⟩

end Verif.Segmentation
