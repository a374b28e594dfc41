import Verif.Segmentation.ShardProps

/-! # C124: filtering a segmentation evaluator, and evaluating the selected masks -/

namespace Verif.Segmentation

open Verif.Shared

/-- The report of the evaluator that `filter` returns for `e` (it keeps the labels of `e`). -/
def Built.filteredReport (e : Built) (d g p : Expr) : Except RepErr Report :=
  (Evaluator.mk (filterTables (some d) (some g) (some p) e.tables) (extractLabels (e.tables.map (fun t => t.map labelCols)))).report none

/-- `e'` was built from the accepted images of `e`, without the rejected masks, added in any order. -/
def OnlyOf (fd : Nat → Bool) (fg fp : Nat → String → Bool) (e e' : Built) : Prop :=
  e'.calls.flatten.Perm ((e.calls.flatten.zipIdx.filter (fun sk => fd sk.2)).map (fun sk => sk.1.drop (fg sk.2) (fp sk.2)))

theorem items_drop {size : Nat} {items : List Item} (h : ItemsOk size items) (f : String → Bool) :
    ItemsOk size (items.filter (fun x => f x.label)) := by
  have hsub : (items.filter (fun x => f x.label)).Sublist items := List.filter_sublist
  refine ⟨fun x hx => h.lens x (hsub.subset hx), ?_, (hsub.map _).nodup h.labels⟩
  have := h.disjoint
  unfold Disjoint at this ⊢
  exact this.sublist (hsub.map _)

theorem seg_drop {s : Seg} (h : SegOk s) (fg fp : String → Bool) : SegOk (s.drop fg fp) :=
  ⟨items_drop h.gts fg, items_drop h.pds fp⟩

theorem OnlyOf.mem {fd : Nat → Bool} {fg fp : Nat → String → Bool} {e e' : Built} (h : OnlyOf fd fg fp e e') {s : Seg}
    (hs : s ∈ e'.calls.flatten) : ∃ t ∈ e.calls.flatten, ∃ k, s = t.drop (fg k) (fp k) := by
  obtain ⟨⟨t, k⟩, ht, rfl⟩ := List.mem_map.1 (h.mem_iff.1 hs)
  exact ⟨t, (List.mem_zipIdx' (by exact (List.mem_filter.1 ht).1)).2 ▸ List.getElem_mem _, k, rfl⟩

theorem OnlyOf.labels {fd : Nat → Bool} {fg fp : Nat → String → Bool} {e e' : Built} (h : OnlyOf fd fg fp e e') :
    ∀ v ∈ e'.labels, v ∈ e.labels := by
  intro v hv
  obtain ⟨s, hs, it, hit, rfl⟩ := ((C38_labels e'.calls).2 v).1 hv
  obtain ⟨t, ht, k, rfl⟩ := h.mem hs
  refine ((C38_labels e.calls).2 _).2 ⟨t, ht, it, ?_, rfl⟩
  unfold Seg.drop at hit
  simp only [List.mem_append, List.mem_filter] at hit ⊢
  tauto

theorem OnlyOf.total {fd : Nat → Bool} {fg fp : Nat → String → Bool} {e e' : Built} (h : OnlyOf fd fg fp e e') (f : Seg → Nat) :
    (((e.calls.flatten.zipIdx.filter (fun sk => fd sk.2)).map (fun sk => sk.1.drop (fg sk.2) (fp sk.2))).map f).sum = total e'.calls f := by
  unfold Verif.Segmentation.total
  exact (h.map f).sum_eq.symm

theorem total_none {calls : List (List Seg)} {f : Seg → Nat} (h : ∀ s ∈ calls.flatten, f s = 0) : total calls f = 0 := by
  unfold total
  rw [List.map_congr_left (g := fun _ => 0) h, List.map_const', List.sum_replicate_nat, Nat.mul_zero]

/-- A label that no mask has: no pixel has it on either side. -/
theorem unused (e : Built) {v : String} (h : v ∉ e.labels) :
    total e.calls (fun s => gtPixelsOf s (some v)) = 0 ∧ total e.calls (fun s => pdPixelsOf s (some v)) = 0 ∧
    total e.calls (fun s => pixelsOf s (some v) (some v)) = 0 := by
  have hg : ∀ s ∈ e.calls.flatten, ∀ x, itemAt s.gts x ≠ some v := by
    intro s hs x hx
    obtain ⟨it, h1, h2⟩ := itemAt_label hx
    exact h (((C38_labels e.calls).2 v).2 ⟨s, hs, it, by simp [h1], h2⟩)
  have hp : ∀ s ∈ e.calls.flatten, ∀ x, itemAt s.pds x ≠ some v := by
    intro s hs x hx
    obtain ⟨it, h1, h2⟩ := itemAt_label hx
    exact h (((C38_labels e.calls).2 v).2 ⟨s, hs, it, by simp [h1], h2⟩)
  refine ⟨total_none ?_, total_none ?_, total_none ?_⟩
  · intro s hs
    unfold gtPixelsOf
    simp [hg s hs]
  · intro s hs
    unfold pdPixelsOf
    simp [hp s hs]
  · intro s hs
    unfold pixelsOf
    simp [hg s hs]

/-- The second list has the metrics of the first and, for labels outside `L`, zeros. -/
def Extends (L : List String) (name : String) (few more : List Metric) : Prop :=
  (∀ x ∈ few, x ∈ more) ∧ ∀ x ∈ more, x ∈ few ∨ ∃ v, v ∉ L ∧ x = ⟨name, .number (some 0), some v⟩

theorem extends_map {L : List String} {name : String} {f : String → Rat} {few more : List (Int × String)}
    (hf : (few.map Prod.snd).Perm L) (hm : ∀ v ∈ L, v ∈ more.map Prod.snd) (h0 : ∀ v, v ∉ L → f v = 0) :
    Extends L name (few.map (fun x => (⟨name, .number (some (f x.2)), some x.2⟩ : Metric)))
      (more.map (fun x => (⟨name, .number (some (f x.2)), some x.2⟩ : Metric))) := by
  constructor
  · intro x hx
    obtain ⟨y, hy, rfl⟩ := List.mem_map.1 hx
    obtain ⟨z, hz, hzy⟩ := List.mem_map.1 (hm y.2 (hf.mem_iff.1 (List.mem_map_of_mem hy)))
    exact List.mem_map.2 ⟨z, hz, by rw [hzy]⟩
  · intro x hx
    obtain ⟨y, hy, rfl⟩ := List.mem_map.1 hx
    by_cases hv : y.2 ∈ L
    · obtain ⟨z, hz, hzy⟩ := List.mem_map.1 (hf.mem_iff.2 hv)
      exact .inl (List.mem_map.2 ⟨z, hz, by rw [hzy]⟩)
    · exact .inr ⟨y.2, hv, by rw [h0 _ hv]⟩

theorem sum_sub {L L' : List String} (hd : L.Nodup) (hd' : L'.Nodup) (hsub : ∀ v ∈ L', v ∈ L) {f : String → Rat}
    (h0 : ∀ v, v ∉ L' → f v = 0) : (L.map f).sum = (L'.map f).sum := by
  have h1 : (L.filter (fun v => decide (v ∈ L'))).Perm L' := by
    refine (List.perm_ext_iff_of_nodup (hd.filter _) hd').2 ?_
    intro v
    rw [List.mem_filter, decide_eq_true_eq]
    exact ⟨fun h => h.2, fun h => ⟨hsub v h, h⟩⟩
  rw [← (h1.map f).sum_eq]
  clear h1 hd hsub
  induction L with
  | nil => rfl
  | cons v L ih =>
    rw [List.map_cons, List.sum_cons, ih, List.filter_cons]
    by_cases hv : v ∈ L'
    · simp [hv]
    · simp [hv, h0 v hv]

/-- **C124 (segmentation).** A segmentation evaluator is filtered by conditions on the image, on the label of the ground truth mask and on the
label of the predicted mask; a second evaluator is built from the accepted images without the rejected masks, in any order of
adding, with any tables. Both report; accuracy is the same; every precision, recall, F1 and IoU that the second evaluator reports is reported by
the filtered one, which adds zeros for the labels that lost all masks; the confusion matrices say the same about the remaining
labels. The two mean IoUs times the numbers of labels are the same, so the means agree when every label still has a mask.
(Not the same when a label lost all masks: `C124_segmentation_violation`.) -/
theorem C124_segmentation_partial {fd : Nat → Bool} {fg fp : Nat → String → Bool} {d g p : Expr} (hd : OnDatum fd d) (hg : OnGt fg g)
    (hq : OnPd fp p) {e e' : Built} (h : OnlyOf fd fg fp e e') (hok : ∀ s ∈ e.calls.flatten, SegOk s)
    (hs : (e.calls.flatten.map Seg.size).sum < 2 ^ 64) (hne : e'.labels ≠ []) :
    ∃ R R', e.filteredReport d g p = .ok R ∧ e'.report = .ok R' ∧ R.accuracy = R'.accuracy ∧
      Extends e'.labels "Precision" R'.precision R.precision ∧ Extends e'.labels "Recall" R'.recall R.recall ∧
      Extends e'.labels "F1" R'.f1 R.f1 ∧ Extends e'.labels "IOU" R'.iou R.iou ∧
      (∃ m a b m' a' b', R.confusionMatrix = [⟨"ConfusionMatrix", .matrix m a b, none⟩] ∧
        R'.confusionMatrix = [⟨"ConfusionMatrix", .matrix m' a' b', none⟩] ∧
        ∀ v ∈ e'.labels, (∀ w ∈ e'.labels, cellOf m v w = cellOf m' v w) ∧ a.lookup v = a'.lookup v ∧ b.lookup v = b'.lookup v) ∧
      (∃ x x' : Rat, R.meanIou = [⟨"mIOU", .number (some x), none⟩] ∧ R'.meanIou = [⟨"mIOU", .number (some x'), none⟩] ∧
        x * e.labels.length = x' * e'.labels.length) ∧
      ((∀ v ∈ e.labels, v ∈ e'.labels) → R.meanIou = R'.meanIou) := by
  have hsub := h.labels
  have hne0 : e.labels ≠ [] := by
    obtain ⟨v, hv⟩ := List.exists_mem_of_ne_nil _ hne
    exact List.ne_nil_of_mem (hsub v hv)
  have hok' : ∀ s ∈ e'.calls.flatten, SegOk s := by
    intro s hsm
    obtain ⟨t, ht, k, rfl⟩ := h.mem hsm
    exact seg_drop (hok t ht) _ _
  have hs' : (e'.calls.flatten.map Seg.size).sum < 2 ^ 64 := by
    rw [(h.map Seg.size).sum_eq]
    exact lt_of_le_of_lt (selected_size e.calls fd fg fp) hs
  obtain ⟨R, e1, a1, c1, m1, p1, r1, f1, i1⟩ := C65_filtered_report e.calls hok hs e.stored hne0 hd hg hq
  have n1 := (C65_report e.calls hok hs e.stored hne0).1
  obtain ⟨n2, R', e2, a2, c2, m2, p2, r2, f2, i2⟩ := C65_report e'.calls hok' hs' e'.stored hne
  simp only [h.total] at a1 c1 m1 p1 r1 f1 i1
  have hun := fun v => unused e' (v := v)
  have hm : ∀ v ∈ e'.labels, v ∈ (extractLabels (e.tables.map (fun t => t.map labelCols))).map Prod.snd :=
    fun v hv => n1.mem_iff.2 (hsub v hv)
  have hnd := (C38_labels e.calls).1
  have hnd' := (C38_labels e'.calls).1
  have hz : ∀ v, v ∉ e'.labels → ratio (total e'.calls (fun s => pixelsOf s (some v) (some v)))
      (total e'.calls (fun s => gtPixelsOf s (some v)) + total e'.calls (fun s => pdPixelsOf s (some v))
        - total e'.calls (fun s => pixelsOf s (some v) (some v))) = 0 := by
    intro v hv
    obtain ⟨h1, h2, h3⟩ := hun v hv
    rw [h1, h2, h3]
    rfl
  have hsum := sum_sub hnd hnd' hsub hz
  have hl : (0 : Rat) < e.labels.length := by exact_mod_cast List.length_pos_iff.2 hne0
  have hl' : (0 : Rat) < e'.labels.length := by exact_mod_cast List.length_pos_iff.2 hne
  refine ⟨R, R', e1, e2, by rw [a1, a2], ?_, ?_, ?_, ?_, ⟨_, _, _, _, _, _, c1, c2, ?_⟩, ⟨_, _, m1, m2, ?_⟩, ?_⟩
  · rw [p1, p2]
    refine extends_map (f := fun v => ratio (total e'.calls (fun s => pixelsOf s (some v) (some v))) (total e'.calls (fun s => pdPixelsOf s (some v)))) n2 hm ?_
    intro v hv
    obtain ⟨h1, h2, h3⟩ := hun v hv
    simp only [h2, h3]
    rfl
  · rw [r1, r2]
    refine extends_map (f := fun v => ratio (total e'.calls (fun s => pixelsOf s (some v) (some v))) (total e'.calls (fun s => gtPixelsOf s (some v)))) n2 hm ?_
    intro v hv
    obtain ⟨h1, h2, h3⟩ := hun v hv
    simp only [h1, h3]
    rfl
  · rw [f1, f2]
    refine extends_map (f := fun v => ratio (2 * total e'.calls (fun s => pixelsOf s (some v) (some v)))
      (total e'.calls (fun s => gtPixelsOf s (some v)) + total e'.calls (fun s => pdPixelsOf s (some v)))) n2 hm ?_
    intro v hv
    obtain ⟨h1, h2, h3⟩ := hun v hv
    simp only [h1, h2, h3]
    rfl
  · rw [i1, i2]
    exact extends_map (f := fun v => ratio (total e'.calls (fun s => pixelsOf s (some v) (some v)))
      (total e'.calls (fun s => gtPixelsOf s (some v)) + total e'.calls (fun s => pdPixelsOf s (some v))
        - total e'.calls (fun s => pixelsOf s (some v) (some v)))) n2 hm hz
  · intro v hv
    have hv0 : v ∈ (Loader.init.addAll e.calls).labels := hsub v hv
    have hv1 : v ∈ (Loader.init.addAll e'.calls).labels := hv
    refine ⟨?_, ?_, ?_⟩
    · intro w hw
      have hw0 : w ∈ (Loader.init.addAll e.calls).labels := hsub w hw
      have hw1 : w ∈ (Loader.init.addAll e'.calls).labels := hw
      rw [cellOf_names, cellOf_names, if_pos ⟨hv0, hw0⟩, if_pos ⟨hv1, hw1⟩]
    · rw [lookup_names, lookup_names, if_pos hv0, if_pos hv1]
    · rw [lookup_names, lookup_names, if_pos hv0, if_pos hv1]
  · show _ / (e.labels.length : Rat) * (e.labels.length : Rat) = _ / (e'.labels.length : Rat) * (e'.labels.length : Rat)
    rw [div_mul_cancel₀ _ hl.ne', div_mul_cancel₀ _ hl'.ne']
    exact hsum
  · intro hall
    have hperm : e.labels.Perm e'.labels := (List.perm_ext_iff_of_nodup hnd hnd').2 fun v => ⟨hall v, hsub v⟩
    rw [m1, m2, hsum, show (Loader.init.addAll e.calls).labels.length = (Loader.init.addAll e'.calls).labels.length from hperm.length_eq]

/-- The full claim for the mean IoU. -/
def SameMean : Prop :=
  ∀ (fd : Nat → Bool) (fg fp : Nat → String → Bool) (d g p : Expr), OnDatum fd d → OnGt fg g → OnPd fp p →
    ∀ e e' : Built, OnlyOf fd fg fp e e' → (∀ s ∈ e.calls.flatten, SegOk s) → (e.calls.flatten.map Seg.size).sum < 2 ^ 64 → e'.labels ≠ [] →
    ∀ R R', e.filteredReport d g p = .ok R → e'.report = .ok R' → R.meanIou = R'.meanIou

/-- Two images with one pixel each: one shows `x`, one shows `y`, both are segmented correctly. -/
def twoImages : List Seg := [⟨"u", 1, [⟨[true], "x", none⟩], [⟨[true], "x", none⟩], none⟩, ⟨"v", 1, [⟨[true], "y", none⟩], [⟨[true], "y", none⟩], none⟩]

/-- Their evaluator. -/
def allImages : Built := ⟨[twoImages], _, List.Perm.refl _⟩
/-- The evaluator of the first one alone. -/
def firstImage : Built := ⟨[twoImages.take 1], _, List.Perm.refl _⟩

/-- Accepts the first image. -/
def onFirst : Expr := fun r => decide (r.datum.toNat = 0)
/-- Accepts every mask. -/
def always : Expr := fun _ => true

theorem twoImages_ok : ∀ s ∈ twoImages, SegOk s := by
  intro s hs
  simp only [twoImages, List.mem_cons, List.not_mem_nil, or_false] at hs
  rcases hs with rfl | rfl <;> exact ⟨⟨by simp, by simp [Disjoint], by decide⟩, ⟨by simp, by simp [Disjoint], by decide⟩⟩

/-- **C124 (segmentation), violation.** Two images, each with one label and segmented without a mistake. Filtered to the first image the evaluator
reports a mean IoU of 1/2; an evaluator of the first image alone reports 1. -/
theorem C124_segmentation_violation : ¬ SameMean ∧
    (allImages.filteredReport onFirst always always).toOption.map (fun R => R.meanIou) = some [⟨"mIOU", .number (some (1 / 2)), none⟩] ∧
    firstImage.report.toOption.map (fun R => R.meanIou) = some [⟨"mIOU", .number (some 1), none⟩] ∧
    OnlyOf (fun k => decide (k = 0)) (fun _ _ => true) (fun _ _ => true) allImages firstImage := by
  have e1 : (allImages.filteredReport onFirst always always).toOption.map (fun R => R.meanIou) = some [⟨"mIOU", .number (some (1 / 2)), none⟩] := by
    decide +kernel
  have e2 : firstImage.report.toOption.map (fun R => R.meanIou) = some [⟨"mIOU", .number (some 1), none⟩] := by decide +kernel
  have e3 : OnlyOf (fun k => decide (k = 0)) (fun _ _ => true) (fun _ _ => true) allImages firstImage := by
    unfold OnlyOf
    have : firstImage.calls.flatten = (allImages.calls.flatten.zipIdx.filter (fun sk => decide (sk.2 = 0))).map (fun sk => sk.1.drop (fun _ => true) (fun _ => true)) := by
      decide +kernel
    rw [this]
  refine ⟨?_, e1, e2, e3⟩
  intro h
  cases hr : allImages.filteredReport onFirst always always with
  | error x => rw [hr] at e1; simp [Except.toOption] at e1
  | ok R =>
    cases hr' : firstImage.report with
    | error x => rw [hr'] at e2; simp [Except.toOption] at e2
    | ok R' =>
      have := h (fun k => decide (k = 0)) (fun _ _ => true) (fun _ _ => true) onFirst always always (fun _ => rfl) (fun _ _ => rfl) (fun _ _ => rfl)
        allImages firstImage e3 twoImages_ok (by decide +kernel) (by decide +kernel) R R' hr hr'
      rw [hr] at e1
      rw [hr'] at e2
      simp only [Except.toOption, Option.map_some, Option.some.injEq] at e1 e2
      rw [e1, e2] at this
      revert this
      decide +kernel

/-- The hypotheses hold for the two images and a filter of the predictions that leaves both labels in use. -/
example : ∃ e', OnlyOf (fun _ => true) (fun _ _ => true) (fun _ v => decide (v = "x")) allImages e' ∧ (∀ v ∈ allImages.labels, v ∈ e'.labels) ∧
    e'.labels ≠ [] ∧ (∀ s ∈ allImages.calls.flatten, SegOk s) ∧ OnPd (fun _ v => decide (v = "x")) (fun r => decide (r.pdLabel.getD "" = "x")) := by
  obtain ⟨e', he⟩ := built_exists [(allImages.calls.flatten.zipIdx.filter (fun _ => true)).map (fun sk => sk.1.drop (fun _ => true) (fun v => decide (v = "x")))]
  refine ⟨e', ?_, ?_, ?_, twoImages_ok, fun _ _ => rfl⟩
  · unfold OnlyOf
    rw [he, List.flatten_singleton]
  · unfold Built.labels
    rw [he]
    decide +kernel
  · unfold Built.labels
    rw [he]
    decide +kernel

end Verif.Segmentation
