import Verif.Segmentation.OnlyProps

/-! # C125: images without masks (`semantic_segmentation/loader.py` 49-190) -/

namespace Verif.Segmentation

open Verif.Shared

/-- An image with neither ground truths nor predictions. -/
def blank (s : Seg) : Bool := s.gts.isEmpty && s.pds.isEmpty

/-- `e'` was built from the images of `e` that have a mask, added in any order. -/
def WithoutBlank (e e' : Built) : Prop := e'.calls.flatten.Perm (e.calls.flatten.filter (fun s => !blank s))

theorem total_split {e e' : Built} (h : WithoutBlank e e') (f : Seg → Nat) :
    total e.calls f = total e'.calls f + ((e.calls.flatten.filter blank).map f).sum := by
  unfold total
  rw [(h.map f).sum_eq, add_comm, ← List.sum_append, ← List.map_append]
  exact (((List.filter_append_perm blank e.calls.flatten)).map f).sum_eq.symm

theorem blank_none {s : Seg} (h : blank s = true) : s.gts = [] ∧ s.pds = [] := by
  unfold blank at h
  rw [Bool.and_eq_true, List.isEmpty_iff, List.isEmpty_iff] at h
  exact h

theorem total_same {e e' : Built} (h : WithoutBlank e e') {f : Seg → Nat} (h0 : ∀ s, blank s = true → f s = 0) :
    total e.calls f = total e'.calls f := by
  rw [total_split h f, List.sum_eq_zero]
  · rfl
  · intro x hx
    obtain ⟨s, hs, rfl⟩ := List.mem_map.1 hx
    exact h0 s (List.mem_filter.1 hs).2

theorem blank_labels {e e' : Built} (h : WithoutBlank e e') : e.labels.Perm e'.labels := by
  refine (List.perm_ext_iff_of_nodup (C38_labels e.calls).1 (C38_labels e'.calls).1).2 fun v => ?_
  rw [(C38_labels e.calls).2 v, (C38_labels e'.calls).2 v]
  constructor
  · rintro ⟨s, hs, it, hit, hv⟩
    refine ⟨s, h.mem_iff.2 (List.mem_filter.2 ⟨hs, ?_⟩), it, hit, hv⟩
    by_contra hb
    obtain ⟨h1, h2⟩ := blank_none (s := s) (by simpa using hb)
    rw [h1, h2] at hit
    simp at hit
  · rintro ⟨s, hs, it, hit, hv⟩
    exact ⟨s, (List.mem_filter.1 (h.mem_iff.1 hs)).1, it, hit, hv⟩

/-- **C125 (segmentation).** Adding images without masks anywhere, in any calls, leaves precision, recall, F1 and IoU of every label, the mean
IoU and the confusion matrix as they are. Their pixels are background on both sides, so the accuracy counts them as right. -/
theorem C125_segmentation {e e' : Built} (h : WithoutBlank e e') (hok : ∀ s ∈ e.calls.flatten, SegOk s)
    (hs : (e.calls.flatten.map Seg.size).sum < 2 ^ 64) (hne : e.labels ≠ []) :
    ∃ R R', e.report = .ok R ∧ e'.report = .ok R' ∧ R.precision.Perm R'.precision ∧ R.recall.Perm R'.recall ∧ R.f1.Perm R'.f1 ∧
      R.iou.Perm R'.iou ∧ R.meanIou = R'.meanIou ∧
      (∃ m a b m' a' b', R.confusionMatrix = [⟨"ConfusionMatrix", .matrix m a b, none⟩] ∧
        R'.confusionMatrix = [⟨"ConfusionMatrix", .matrix m' a' b', none⟩] ∧
        (∀ v w, cellOf m v w = cellOf m' v w) ∧ (∀ v, a.lookup v = a'.lookup v) ∧ ∀ v, b.lookup v = b'.lookup v) ∧
      ∃ right all : Nat, R'.accuracy = [⟨"Accuracy", .number (some (ratio right all)), none⟩] ∧
        R.accuracy = [⟨"Accuracy", .number (some (ratio (right + ((e.calls.flatten.filter blank).map Seg.size).sum)
          (all + ((e.calls.flatten.filter blank).map Seg.size).sum))), none⟩] := by
  have hL := blank_labels h
  have hok' : ∀ s ∈ e'.calls.flatten, SegOk s := fun s hsm => hok s (List.mem_filter.1 (h.mem_iff.1 hsm)).1
  have hs' : (e'.calls.flatten.map Seg.size).sum < 2 ^ 64 := by
    have := total_split h Seg.size
    unfold total at this
    omega
  have hne' : e'.labels ≠ [] := by
    intro h0
    rw [h0] at hL
    exact hne hL.eq_nil
  obtain ⟨n1, R, e1, a1, c1, m1, p1, r1, f1, i1⟩ := C65_report e.calls hok hs e.stored hne
  obtain ⟨n2, R', e2, a2, c2, m2, p2, r2, f2, i2⟩ := C65_report e'.calls hok' hs' e'.stored hne'
  have hz : ∀ (g p : Option String), (g.isSome ∨ p.isSome) → total e.calls (fun s => pixelsOf s g p) = total e'.calls (fun s => pixelsOf s g p) := by
    intro g p hgp
    apply total_same h
    intro s hb
    obtain ⟨h1, h2⟩ := blank_none hb
    unfold pixelsOf
    rw [h1, h2, List.countP_eq_zero]
    rintro x _ hx
    have hx := of_decide_eq_true hx
    simp only [itemAt, List.find?_nil, Option.map_none] at hx
    rw [← hx.1, ← hx.2] at hgp
    simp at hgp
  have hg : ∀ v, total e.calls (fun s => gtPixelsOf s (some v)) = total e'.calls (fun s => gtPixelsOf s (some v)) := by
    intro v
    apply total_same h
    intro s hb
    unfold gtPixelsOf
    rw [(blank_none hb).1]
    simp [itemAt]
  have hd : ∀ v, total e.calls (fun s => pdPixelsOf s (some v)) = total e'.calls (fun s => pdPixelsOf s (some v)) := by
    intro v
    apply total_same h
    intro s hb
    unfold pdPixelsOf
    rw [(blank_none hb).2]
    simp [itemAt]
  have hb := fun g p => hz (some g) (some p) (.inl rfl)
  have hgb := fun g => hz (some g) none (.inl rfl)
  have hbp := fun p => hz none (some p) (.inr rfl)
  simp only [hb, hg, hd, hgb, hbp] at c1 m1 p1 r1 f1 i1
  have hP : ∀ (f : String → Metric), ((extractLabels (e.tables.map (fun t => t.map labelCols))).map (fun x => f x.2)).Perm
      ((extractLabels (e'.tables.map (fun t => t.map labelCols))).map (fun x => f x.2)) := by
    intro f
    have := ((n1.trans hL).trans n2.symm).map f
    rw [List.map_map, List.map_map] at this
    exact this
  refine ⟨R, R', e1, e2, ?_, ?_, ?_, ?_, ?_, ⟨_, _, _, _, _, _, c1, c2, ?_, ?_, ?_⟩, _, _, a2, ?_⟩
  · rw [p1, p2]
    exact hP (fun v => ⟨"Precision", .number (some (ratio (total e'.calls (fun s => pixelsOf s (some v) (some v))) (total e'.calls (fun s => pdPixelsOf s (some v))))), some v⟩)
  · rw [r1, r2]
    exact hP (fun v => ⟨"Recall", .number (some (ratio (total e'.calls (fun s => pixelsOf s (some v) (some v))) (total e'.calls (fun s => gtPixelsOf s (some v))))), some v⟩)
  · rw [f1, f2]
    exact hP (fun v => ⟨"F1", .number (some (ratio (2 * total e'.calls (fun s => pixelsOf s (some v) (some v))) (total e'.calls (fun s => gtPixelsOf s (some v)) + total e'.calls (fun s => pdPixelsOf s (some v))))), some v⟩)
  · rw [i1, i2]
    exact hP (fun v => ⟨"IOU", .number (some (ratio (total e'.calls (fun s => pixelsOf s (some v) (some v)))
      (total e'.calls (fun s => gtPixelsOf s (some v)) + total e'.calls (fun s => pdPixelsOf s (some v)) - total e'.calls (fun s => pixelsOf s (some v) (some v))))), some v⟩)
  · have hL' : (Loader.init.addAll e.calls).labels.Perm (Loader.init.addAll e'.calls).labels := hL
    rw [m1, m2, (hL'.map _).sum_eq, hL'.length_eq]
  · intro v w
    have hL' : (Loader.init.addAll e.calls).labels.Perm (Loader.init.addAll e'.calls).labels := hL
    rw [cellOf_names, cellOf_names]
    simp only [hL'.mem_iff]
  · intro v
    have hL' : (Loader.init.addAll e.calls).labels.Perm (Loader.init.addAll e'.calls).labels := hL
    rw [lookup_names, lookup_names]
    simp only [hL'.mem_iff]
  · intro v
    have hL' : (Loader.init.addAll e.calls).labels.Perm (Loader.init.addAll e'.calls).labels := hL
    rw [lookup_names, lookup_names]
    simp only [hL'.mem_iff]
  · rw [a1, total_split h, total_split h Seg.size]
    congr 7
    apply List.map_congr_left
    intro s hsb
    obtain ⟨h1, h2⟩ := blank_none (List.mem_filter.1 hsb).2
    rw [h1, h2]
    simp

/-- The hypotheses hold for an image with masks between two images without, and the accuracy rises from 1/2 to 5/6. -/
example : ∃ e e' : Built, e.calls.flatten = [⟨"u", 3, [], [], none⟩, ⟨"v", 2, [⟨[true, false], "x", none⟩], [⟨[true, true], "x", none⟩], none⟩,
      ⟨"w", 1, [], [], none⟩] ∧ WithoutBlank e e' ∧ (∀ s ∈ e.calls.flatten, SegOk s) ∧ (e.calls.flatten.map Seg.size).sum < 2 ^ 64 ∧ e.labels ≠ [] ∧
    (∃ R, e.report = .ok R ∧ R.accuracy = [⟨"Accuracy", .number (some (5 / 6)), none⟩]) ∧
    ∃ R, e'.report = .ok R ∧ R.accuracy = [⟨"Accuracy", .number (some (1 / 2)), none⟩] := by
  refine ⟨⟨[[⟨"u", 3, [], [], none⟩, ⟨"v", 2, [⟨[true, false], "x", none⟩], [⟨[true, true], "x", none⟩], none⟩], [⟨"w", 1, [], [], none⟩]], _, List.Perm.refl _⟩,
    ⟨[[⟨"v", 2, [⟨[true, false], "x", none⟩], [⟨[true, true], "x", none⟩], none⟩]], _, List.Perm.refl _⟩, rfl, by unfold WithoutBlank; decide +kernel, ?_, by decide +kernel,
    by decide +kernel, ⟨_, rfl, by decide +kernel⟩, _, rfl, by decide +kernel⟩
  intro s hs
  simp only [List.flatten_cons, List.flatten_nil, List.append_nil, List.cons_append, List.nil_append, List.mem_cons, List.not_mem_nil, or_false] at hs
  rcases hs with rfl | rfl | rfl <;> exact ⟨⟨by simp, by simp [Disjoint], by decide⟩, ⟨by simp, by simp [Disjoint], by decide⟩⟩

end Verif.Segmentation
