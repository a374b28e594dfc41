import Verif.Segmentation.OrderProps

/-! # C84: a segmentation dataset in shards -/

namespace Verif.Segmentation

open Verif.Shared

/-- An evaluator that was built from the given calls, with any division of the rows into tables. -/
structure Built where
  calls : List (List Seg)
  tables : List (List SRow)
  stored : tables.flatten.Perm (Loader.init.addAll calls).rows.flatten

/-- The labels by id. -/
def Built.labels (e : Built) : List String := (Loader.init.addAll e.calls).labels

/-- The entry of the confusion matrix for a ground truth and a prediction (`none` is background); zero for labels that the evaluator
does not have. -/
def Built.pixels (e : Built) (a b : Option String) : Nat :=
  if (∀ v ∈ a, v ∈ e.labels) ∧ (∀ v ∈ b, v ∈ e.labels) then
    confusionMatrix e.labels.length none e.tables (scode e.labels a) (scode e.labels b)
  else 0

/-- The report of the evaluator. -/
def Built.report (e : Built) : Except RepErr Report :=
  (Evaluator.mk e.tables (extractLabels (e.tables.map (fun t => t.map labelCols)))).report none

theorem itemAt_label {items : List Item} {x : Nat} {v : String} (h : itemAt items x = some v) : ∃ it ∈ items, it.label = v := by
  unfold itemAt at h
  obtain ⟨it, h1, h2⟩ := Option.map_eq_some_iff.1 h
  exact ⟨it, List.mem_of_find?_eq_some h1, h2⟩

theorem Built.pixels_eq (e : Built) (hok : ∀ s ∈ e.calls.flatten, SegOk s) (hs : (e.calls.flatten.map Seg.size).sum < 2 ^ 64)
    (a b : Option String) : e.pixels a b = total e.calls (fun s => pixelsOf s a b) := by
  unfold Built.pixels
  split
  · rename_i h
    exact C38_matrix e.calls hok hs e.stored h.1 h.2
  · rename_i h
    symm
    unfold total
    rw [List.map_congr_left (g := fun _ => 0)]
    · rw [List.map_const', List.sum_replicate_nat, Nat.mul_zero]
    · intro s hsm
      unfold pixelsOf
      rw [List.countP_eq_zero]
      intro x _ hx
      obtain ⟨ha, hb⟩ := of_decide_eq_true hx
      apply h
      constructor
      · rintro v hv
        obtain ⟨it, h1, h2⟩ := itemAt_label (ha.trans hv)
        exact ((C38_labels e.calls).2 v).2 ⟨s, hsm, it, by simp [h1], h2⟩
      · rintro v hv
        obtain ⟨it, h1, h2⟩ := itemAt_label (hb.trans hv)
        exact ((C38_labels e.calls).2 v).2 ⟨s, hsm, it, by simp [h1], h2⟩

/-- The images of the whole are the images of the shards. -/
def Split (whole : Built) (shards : List Built) : Prop :=
  whole.calls.flatten.Perm (shards.map (fun e => e.calls.flatten)).flatten

theorem sum_flatten_map {α : Type} (f : α → Nat) (ls : List (List α)) : (ls.flatten.map f).sum = (ls.map (fun l => (l.map f).sum)).sum := by
  induction ls with
  | nil => rfl
  | cons l ls ih => rw [List.flatten_cons, List.map_append, List.sum_append, ih, List.map_cons, List.sum_cons]

theorem Split.total {whole : Built} {shards : List Built} (h : Split whole shards) (f : Seg → Nat) :
    total whole.calls f = (shards.map (fun e => total e.calls f)).sum := by
  unfold Verif.Segmentation.total
  rw [(List.Perm.map f h).sum_eq, sum_flatten_map, List.map_map]
  rfl

theorem Split.mem {whole : Built} {shards : List Built} (h : Split whole shards) {e : Built} (he : e ∈ shards) :
    ∀ s ∈ e.calls.flatten, s ∈ whole.calls.flatten := by
  intro s hs
  exact List.Perm.mem_iff h |>.2 (List.mem_flatten.2 ⟨_, List.mem_map.2 ⟨e, he, rfl⟩, hs⟩)

/-- **C84 (segmentation, confusion matrix).** Images with disjoint masks and distinct labels are evaluated as a whole and in shards, each with
its own evaluator, label ids, order of adding and tables: the numbers of pixels of the shards add up to those of the whole, for
every pair of labels or background. -/
theorem C84_segmentation_matrix (whole : Built) (shards : List Built) (h : Split whole shards) (hok : ∀ s ∈ whole.calls.flatten, SegOk s)
    (hs : (whole.calls.flatten.map Seg.size).sum < 2 ^ 64) (a b : Option String) :
    whole.pixels a b = (shards.map (fun e => e.pixels a b)).sum := by
  rw [whole.pixels_eq hok hs, h.total]
  congr 1
  apply List.map_congr_left
  intro e he
  refine (e.pixels_eq (fun s hsm => hok s (h.mem he s hsm)) ?_ a b).symm
  refine lt_of_le_of_lt ?_ hs
  have hsz := h.total Seg.size
  unfold Verif.Segmentation.total at hsz
  rw [hsz]
  exact List.le_sum_of_mem (List.mem_map_of_mem (f := fun e : Built => (e.calls.flatten.map Seg.size).sum) he)

theorem ratio_times {n : Nat} (hn : 0 < n) (a b : Nat) : ratio (n * a) (n * b) = ratio a b := by
  have hq : (n : Rat) ≠ 0 := by exact_mod_cast hn.ne'
  unfold ratio
  by_cases h : b = 0
  · simp [h]
  · simp [h, hn.ne', mul_div_mul_left _ _ hq]

/-- **C84 (segmentation, copies).** A dataset in which every image is repeated `n` times has the accuracy and the mean IoU of the dataset, the
same precision, recall, F1 and IoU of the labels, and a confusion matrix that says the same about every two labels and about the
background of every label. -/
theorem C84_segmentation_copies (whole e : Built) {n : Nat} (hn : 0 < n) (hp : whole.calls.flatten.Perm (List.replicate n e.calls.flatten).flatten)
    (hok : ∀ s ∈ e.calls.flatten, SegOk s) (hs : (whole.calls.flatten.map Seg.size).sum < 2 ^ 64) (hne : e.labels ≠ []) :
    ∃ R R', whole.report = .ok R ∧ e.report = .ok R' ∧
      R.accuracy = R'.accuracy ∧ R.meanIou = R'.meanIou ∧ R.precision.Perm R'.precision ∧ R.recall.Perm R'.recall ∧
      R.f1.Perm R'.f1 ∧ R.iou.Perm R'.iou ∧
      ∃ m a b m' a' b', R.confusionMatrix = [⟨"ConfusionMatrix", .matrix m a b, none⟩] ∧
        R'.confusionMatrix = [⟨"ConfusionMatrix", .matrix m' a' b', none⟩] ∧
        (∀ g p, cellOf m g p = cellOf m' g p) ∧ (∀ v, a.lookup v = a'.lookup v) ∧ ∀ v, b.lookup v = b'.lookup v := by
  have hmem : ∀ s, s ∈ whole.calls.flatten ↔ s ∈ e.calls.flatten := by
    intro s
    rw [hp.mem_iff]
    constructor
    · intro h
      obtain ⟨l, hl, hcl⟩ := List.mem_flatten.1 h
      rw [(List.mem_replicate.1 hl).2] at hcl
      exact hcl
    · intro h
      exact List.mem_flatten.2 ⟨_, List.mem_replicate.2 ⟨hn.ne', rfl⟩, h⟩
  have hl : whole.labels.Perm e.labels := by
    refine (List.perm_ext_iff_of_nodup (C38_labels whole.calls).1 (C38_labels e.calls).1).2 ?_
    intro v
    rw [(C38_labels whole.calls).2, (C38_labels e.calls).2]
    simp only [hmem]
  have htot : ∀ f, total whole.calls f = n * total e.calls f := by
    intro f
    unfold total
    rw [(hp.map f).sum_eq, sum_flatten_map, List.map_replicate, List.sum_replicate_nat]
  have hs' : (e.calls.flatten.map Seg.size).sum < 2 ^ 64 := by
    have h := htot Seg.size
    unfold total at h
    rw [h] at hs
    exact lt_of_le_of_lt (Nat.le_mul_of_pos_left _ hn) hs
  have hne' : whole.labels ≠ [] := by
    intro e0
    rw [e0] at hl
    exact hne hl.nil_eq.symm
  obtain ⟨n1, R, e1, a1, c1, m1, p1, r1, f1, i1⟩ := C65_report whole.calls (fun s h => hok s ((hmem s).1 h)) hs whole.stored hne'
  obtain ⟨n2, R', e2, a2, c2, m2, p2, r2, f2, i2⟩ := C65_report e.calls hok hs' e.stored hne
  simp only [htot, ← Nat.mul_add, ← Nat.mul_sub, ratio_times hn] at a1 c1 m1 p1 r1 i1
  have hlf : ∀ v, ratio (2 * total whole.calls (fun s => pixelsOf s (some v) (some v)))
      (total whole.calls (fun s => gtPixelsOf s (some v)) + total whole.calls (fun s => pdPixelsOf s (some v)))
      = ratio (2 * total e.calls (fun s => pixelsOf s (some v) (some v)))
      (total e.calls (fun s => gtPixelsOf s (some v)) + total e.calls (fun s => pdPixelsOf s (some v))) := by
    intro v
    rw [htot, htot, htot, ← Nat.mul_add, Nat.mul_left_comm, ratio_times hn]
  simp only [hlf] at f1
  have hnames := n1.trans (hl.trans n2.symm)
  have hlist : ∀ f : String → Metric, ((extractLabels (whole.tables.map (fun t => t.map labelCols))).map (fun x => f x.2)).Perm
      ((extractLabels (e.tables.map (fun t => t.map labelCols))).map (fun x => f x.2)) := by
    intro f
    have := hnames.map f
    simpa only [List.map_map, Function.comp_def] using this
  unfold Built.labels at hl
  refine ⟨R, R', e1, e2, by rw [a1, a2], ?_, ?_, ?_, ?_, ?_, _, _, _, _, _, _, c1, c2, ?_, ?_, ?_⟩
  · rw [m1, m2, (hl.map _).sum_eq, hl.length_eq]
  · rw [p1, p2]
    exact hlist (fun v => ⟨"Precision", .number (some (ratio (total e.calls (fun s => pixelsOf s (some v) (some v))) (total e.calls (fun s => pdPixelsOf s (some v))))), some v⟩)
  · rw [r1, r2]
    exact hlist (fun v => ⟨"Recall", .number (some (ratio (total e.calls (fun s => pixelsOf s (some v) (some v))) (total e.calls (fun s => gtPixelsOf s (some v))))), some v⟩)
  · rw [f1, f2]
    exact hlist (fun v => ⟨"F1", .number (some (ratio (2 * (total e.calls (fun s => pixelsOf s (some v) (some v)))) ((total e.calls (fun s => gtPixelsOf s (some v))) + (total e.calls (fun s => pdPixelsOf s (some v)))))), some v⟩)
  · rw [i1, i2]
    exact hlist (fun v => ⟨"IOU", .number (some (ratio (total e.calls (fun s => pixelsOf s (some v) (some v))) ((total e.calls (fun s => gtPixelsOf s (some v))) + (total e.calls (fun s => pdPixelsOf s (some v))) - (total e.calls (fun s => pixelsOf s (some v) (some v)))))), some v⟩)
  · intro g p
    rw [cellOf_names, cellOf_names]
    simp only [hl.mem_iff]
  · intro v
    rw [lookup_names, lookup_names]
    simp only [hl.mem_iff]
  · intro v
    rw [lookup_names, lookup_names]
    simp only [hl.mem_iff]

/-- Every history has an evaluator. -/
theorem built_exists (calls : List (List Seg)) : ∃ e : Built, e.calls = calls :=
  ⟨⟨calls, [(Loader.init.addAll calls).rows.flatten], by rw [List.flatten_singleton]⟩, rfl⟩

/-- The sample in two shards, and the sample twice. -/
example : ∃ whole a b twice : Built, whole.calls = sampleCalls ∧ Split whole [a, b] ∧ a.calls.flatten ≠ [] ∧ b.calls.flatten ≠ [] ∧
    twice.calls.flatten.Perm (List.replicate 2 whole.calls.flatten).flatten ∧
    (twice.calls.flatten.map Seg.size).sum < 2 ^ 64 ∧ whole.labels ≠ [] := by
  obtain ⟨w, hw⟩ := built_exists sampleCalls
  obtain ⟨a, ha⟩ := built_exists [sampleCalls.flatten.take 1]
  obtain ⟨b, hb⟩ := built_exists [sampleCalls.flatten.drop 1]
  obtain ⟨d, hd⟩ := built_exists (sampleCalls ++ sampleCalls)
  refine ⟨w, a, b, d, hw, ?_, ?_, ?_, ?_, ?_, ?_⟩
  · unfold Split
    rw [hw, List.map_cons, List.map_cons, List.map_nil, ha, hb, List.flatten_cons, List.flatten_cons, List.flatten_nil, List.append_nil,
      List.flatten_singleton, List.flatten_singleton, List.take_append_drop]
  · rw [ha]; decide +kernel
  · rw [hb]; decide +kernel
  · rw [hd, hw]; simp
  · rw [hd]; decide +kernel
  · unfold Built.labels; rw [hw]; decide +kernel

end Verif.Segmentation
