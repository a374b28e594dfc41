import Verif.Segmentation.WeightedProps
import Verif.Classification.OneMoreProps

/-!
# C129: one more image

(`semantic_segmentation/loader.py` 49-190, `semantic_segmentation/computation.py` 62-165)
-/

namespace Verif.Segmentation

open Verif.Classification (quot_grows quot_shrinks' quot_nonneg)

/-- `e'` was built from the images of `e` and `s`, added in any order. -/
def OneMoreImage (e e' : Built) (s : Seg) : Prop := e'.calls.flatten.Perm (s :: e.calls.flatten)

/-- No pixel has the predicted label of its ground truth (it may be background on both sides). -/
def NoneFound (s : Seg) : Prop := ∀ x < s.size, itemAt s.gts x = itemAt s.pds x → itemAt s.gts x = none

/-- For every label that both lists report, the value of the second is not smaller. -/
def NotLower (kind : String) (l l' : List Metric) : Prop :=
  ∀ v x x', ⟨kind, .number (some x), some v⟩ ∈ l → ⟨kind, .number (some x'), some v⟩ ∈ l' → x ≤ x'

theorem more_total {e e' : Built} {s : Seg} (h : OneMoreImage e e' s) (f : Seg → Nat) : total e'.calls f = total e.calls f + f s := by
  unfold total
  rw [(h.map f).sum_eq, List.map_cons, List.sum_cons, Nat.add_comm]

theorem none_found {s : Seg} (h : NoneFound s) (v : String) : pixelsOf s (some v) (some v) = 0 := by
  unfold pixelsOf
  rw [List.countP_eq_zero]
  intro x hx hd
  obtain ⟨h1, h2⟩ := of_decide_eq_true hd
  have := h x (List.mem_range.1 hx) (h1.trans h2.symm)
  rw [h1] at this
  cases this

theorem right_le (calls : List (List Seg)) :
    total calls (fun s => (List.range s.size).countP (fun x => decide (itemAt s.gts x = itemAt s.pds x))) ≤ total calls Seg.size := by
  apply total_le
  intro s
  exact le_trans List.countP_le_length (by simp)

theorem both_le (calls : List (List Seg)) (v : String) :
    total calls (fun s => pixelsOf s (some v) (some v)) ≤ total calls (fun s => gtPixelsOf s (some v)) ∧
    total calls (fun s => pixelsOf s (some v) (some v)) ≤ total calls (fun s => pdPixelsOf s (some v)) :=
  ⟨total_le fun s => (pixels_le s v).1, total_le fun s => (pixels_le s v).2⟩

/-- Two lists of values by label. -/
theorem notLower_of {α : Type} {l l' : List (α × String)} {kind : String} {f f' : String → Rat} (h : ∀ v, f v ≤ f' v) :
    NotLower kind (l.map (fun x => ⟨kind, .number (some (f x.2)), some x.2⟩)) (l'.map (fun x => ⟨kind, .number (some (f' x.2)), some x.2⟩)) := by
  intro v x x' h1 h2
  obtain ⟨y, _, hy⟩ := List.mem_map.1 h1
  obtain ⟨y', _, hy'⟩ := List.mem_map.1 h2
  simp only [Metric.mk.injEq, MetricValue.number.injEq, Option.some.injEq, true_and] at hy hy'
  obtain ⟨rfl, rfl⟩ := hy
  obtain ⟨rfl, h3⟩ := hy'
  rw [h3]
  exact h _

/-- The labels of the larger dataset are those of the smaller one and new ones. -/
theorem more_labels {e e' : Built} {s : Seg} (h : OneMoreImage e e' s) : ∃ N : List String, e'.labels.Perm (e.labels ++ N) ∧
    ∀ v ∈ N, v ∉ e.labels ∧ ∃ it ∈ s.gts ++ s.pds, it.label = v := by
  obtain ⟨n1, l1⟩ := C38_labels e.calls
  obtain ⟨n2, l2⟩ := C38_labels e'.calls
  refine ⟨e'.labels.filter (fun v => decide (v ∉ e.labels)), ?_, ?_⟩
  · refine (List.perm_ext_iff_of_nodup n2 (List.nodup_append.2 ⟨n1, n2.filter _, ?_⟩)).2 fun v => ?_
    · rintro a ha b hb rfl
      exact of_decide_eq_true (List.mem_filter.1 hb).2 ha
    · rw [List.mem_append, List.mem_filter]
      constructor
      · intro hv
        by_cases hv' : v ∈ e.labels
        · exact .inl hv'
        · exact .inr ⟨hv, decide_eq_true hv'⟩
      · rintro (hv | hv)
        · obtain ⟨s', hs', hit⟩ := (l1 v).1 hv
          exact (l2 v).2 ⟨s', h.mem_iff.2 (List.mem_cons_of_mem _ hs'), hit⟩
        · exact hv.1
  · intro v hv
    obtain ⟨h1, h2⟩ := List.mem_filter.1 hv
    have h2 := of_decide_eq_true h2
    refine ⟨h2, ?_⟩
    obtain ⟨s', hs', it, hit, hl⟩ := (l2 v).1 h1
    rcases List.mem_cons.1 (h.mem_iff.1 hs') with rfl | hs'
    · exact ⟨it, hit, hl⟩
    · exact absurd ((l1 v).2 ⟨s', hs', it, hit, hl⟩) h2

/-- A label that is not in the dataset has no pixels. -/
theorem unknown_pixels {e : Built} {v : String} (hv : v ∉ e.labels) :
    total e.calls (fun s => gtPixelsOf s (some v)) = 0 ∧ total e.calls (fun s => pdPixelsOf s (some v)) = 0 := by
  obtain ⟨_, l1⟩ := C38_labels e.calls
  constructor
  · apply total_zero
    intro s hs
    unfold gtPixelsOf
    rw [List.countP_eq_zero]
    intro x _ hx
    obtain ⟨it, h1, h2⟩ := itemAt_label (of_decide_eq_true hx)
    exact hv ((l1 v).2 ⟨s, hs, it, List.mem_append_left _ h1, h2⟩)
  · apply total_zero
    intro s hs
    unfold pdPixelsOf
    rw [List.countP_eq_zero]
    intro x _ hx
    obtain ⟨it, h1, h2⟩ := itemAt_label (of_decide_eq_true hx)
    exact hv ((l1 v).2 ⟨s, hs, it, List.mem_append_right _ h1, h2⟩)

theorem mean_grows {L N : List String} {f f' : String → Rat} (hL : L ≠ []) (h : ∀ v ∈ L, f v ≤ f' v) (h1 : ∀ v ∈ L, f v ≤ 1) (hN : ∀ v ∈ N, f' v = 1) :
    (L.map f).sum / L.length ≤ ((L ++ N).map f').sum / (L ++ N).length := by
  have hn : (0 : Rat) < L.length := by exact_mod_cast List.length_pos_iff.2 hL
  have s1 : (L.map f).sum ≤ (L.map f').sum := List.sum_le_sum h
  have s2 : (L.map f).sum ≤ L.length := by
    have := List.sum_le_card_nsmul (L.map f) 1 (by
      intro x hx
      obtain ⟨v, hv, rfl⟩ := List.mem_map.1 hx
      exact h1 v hv)
    simpa using this
  have s3 : (N.map f').sum = N.length := by
    rw [List.map_congr_left (g := fun _ => (1 : Rat)) hN]
    simp
  rw [List.map_append, List.sum_append, s3, List.length_append, Nat.cast_add, div_le_div_iff₀ hn (by positivity)]
  have hm : (0 : Rat) ≤ N.length := by positivity
  nlinarith [mul_le_mul_of_nonneg_right s1 hn.le, mul_le_mul_of_nonneg_right s2 hm]

theorem mean_shrinks {L N : List String} {f f' : String → Rat} (hL : L ≠ []) (h : ∀ v ∈ L, f' v ≤ f v) (h0 : ∀ v ∈ L, 0 ≤ f v) (hN : ∀ v ∈ N, f' v = 0) :
    ((L ++ N).map f').sum / (L ++ N).length ≤ (L.map f).sum / L.length := by
  have hn : (0 : Rat) < L.length := by exact_mod_cast List.length_pos_iff.2 hL
  have s1 : (L.map f').sum ≤ (L.map f).sum := List.sum_le_sum h
  have s2 : 0 ≤ (L.map f).sum := List.sum_nonneg (by
    intro x hx
    obtain ⟨v, hv, rfl⟩ := List.mem_map.1 hx
    exact h0 v hv)
  have s3 : (N.map f').sum = 0 := by
    rw [List.map_congr_left (g := fun _ => (0 : Rat)) hN]
    simp
  rw [List.map_append, List.sum_append, s3, add_zero, List.length_append, Nat.cast_add, div_le_div_iff₀ (by positivity) hn]
  have hm : (0 : Rat) ≤ N.length := by positivity
  nlinarith [mul_le_mul_of_nonneg_right s1 hn.le, mul_nonneg s2 hm]

theorem ratio_le_one {a b : Nat} (h : a ≤ b) : ratio a b ≤ 1 := by
  unfold ratio
  split
  · norm_num
  · rename_i hb
    have : (0 : Rat) < b := by exact_mod_cast Nat.pos_of_ne_zero hb
    rw [div_le_one this]
    exact_mod_cast h

/-- **C129 (right, partial).** One more image all of whose pixels are predicted correctly lowers neither the accuracy nor precision, recall, F1 and IoU of any
label; nor the mean IoU, if every mask of the image holds a pixel. Missing: the mean IoU for images with empty masks, for which it is false (`C129_violation`). -/
theorem C129_right_partial {e e' : Built} {s : Seg} (h : OneMoreImage e e' s) (hok : ∀ s ∈ e'.calls.flatten, SegOk s)
    (hs : (e'.calls.flatten.map Seg.size).sum < 2 ^ 64) (hne : e.labels ≠ []) (hr : SameEverywhere s) :
    ∃ R R', e.report = .ok R ∧ e'.report = .ok R' ∧ NotLower "Precision" R.precision R'.precision ∧ NotLower "Recall" R.recall R'.recall ∧
      NotLower "F1" R.f1 R'.f1 ∧ NotLower "IOU" R.iou R'.iou ∧
      (∃ a a', R.accuracy = [⟨"Accuracy", .number (some a), none⟩] ∧ R'.accuracy = [⟨"Accuracy", .number (some a'), none⟩] ∧ a ≤ a') ∧
      ∃ m m', R.meanIou = [⟨"mIOU", .number (some m), none⟩] ∧ R'.meanIou = [⟨"mIOU", .number (some m'), none⟩] ∧
        ((∀ it ∈ s.gts ++ s.pds, ∃ x < s.size, itemAt s.gts x = some it.label) → m ≤ m') := by
  have hok1 : ∀ s ∈ e.calls.flatten, SegOk s := fun s hsm => hok s (h.mem_iff.2 (List.mem_cons_of_mem _ hsm))
  have hs1 : (e.calls.flatten.map Seg.size).sum < 2 ^ 64 := by
    have := more_total h Seg.size
    unfold total at this
    omega
  obtain ⟨N, hN, hnew⟩ := more_labels h
  have hne' : e'.labels ≠ [] := by
    intro h0
    rw [h0] at hN
    exact hne (List.append_eq_nil_iff.1 hN.symm.eq_nil).1
  obtain ⟨n1, R, e1, a1, c1, m1, p1, r1, f1, i1⟩ := C65_report e.calls hok1 hs1 e.stored hne
  obtain ⟨n2, R', e2, a2, c2, m2, p2, r2, f2, i2⟩ := C65_report e'.calls hok hs e'.stored hne'
  dsimp only at a1 m1 p1 r1 f1 i1 a2 m2 p2 r2 f2 i2
  have hb : ∀ v, pixelsOf s (some v) (some v) = gtPixelsOf s (some v) := fun v => by rw [same_pixels hr, if_pos rfl]
  have hd : ∀ v, pdPixelsOf s (some v) = gtPixelsOf s (some v) := fun v => same_pd hr (some v)
  have hiou : ∀ v, ratio (total e.calls (fun s => pixelsOf s (some v) (some v)))
      (total e.calls (fun s => gtPixelsOf s (some v)) + total e.calls (fun s => pdPixelsOf s (some v)) - total e.calls (fun s => pixelsOf s (some v) (some v)))
      ≤ ratio (total e'.calls (fun s => pixelsOf s (some v) (some v)))
      (total e'.calls (fun s => gtPixelsOf s (some v)) + total e'.calls (fun s => pdPixelsOf s (some v)) - total e'.calls (fun s => pixelsOf s (some v) (some v))) := by
    intro v
    obtain ⟨b1, b2⟩ := both_le e.calls v
    rw [more_total h, more_total h, more_total h, hb, hd]
    refine (quot_grows (k := gtPixelsOf s (some v)) (by omega)).trans_eq ?_
    congr 1
    omega
  refine ⟨R, R', e1, e2, ?_, ?_, ?_, ?_, ⟨_, _, a1, a2, ?_⟩, _, _, m1, m2, ?_⟩
  · rw [p1, p2]
    refine notLower_of (f := fun v => ratio (total e.calls (fun s => pixelsOf s (some v) (some v))) (total e.calls (fun s => pdPixelsOf s (some v))))
      (f' := fun v => ratio (total e'.calls (fun s => pixelsOf s (some v) (some v))) (total e'.calls (fun s => pdPixelsOf s (some v)))) fun v => ?_
    rw [more_total h, more_total h, hb, hd]
    exact quot_grows (both_le e.calls v).2
  · rw [r1, r2]
    refine notLower_of (f := fun v => ratio (total e.calls (fun s => pixelsOf s (some v) (some v))) (total e.calls (fun s => gtPixelsOf s (some v))))
      (f' := fun v => ratio (total e'.calls (fun s => pixelsOf s (some v) (some v))) (total e'.calls (fun s => gtPixelsOf s (some v)))) fun v => ?_
    rw [more_total h, more_total h, hb]
    exact quot_grows (both_le e.calls v).1
  · rw [f1, f2]
    refine notLower_of (f := fun v => ratio (2 * total e.calls (fun s => pixelsOf s (some v) (some v))) (total e.calls (fun s => gtPixelsOf s (some v)) + total e.calls (fun s => pdPixelsOf s (some v))))
      (f' := fun v => ratio (2 * total e'.calls (fun s => pixelsOf s (some v) (some v))) (total e'.calls (fun s => gtPixelsOf s (some v)) + total e'.calls (fun s => pdPixelsOf s (some v)))) fun v => ?_
    obtain ⟨b1, b2⟩ := both_le e.calls v
    rw [more_total h, more_total h, more_total h, hb, hd]
    refine (quot_grows (k := 2 * gtPixelsOf s (some v)) (by omega)).trans_eq ?_
    congr 1 <;> omega
  · rw [i1, i2]
    exact notLower_of (f := fun v => ratio (total e.calls (fun s => pixelsOf s (some v) (some v))) (total e.calls (fun s => gtPixelsOf s (some v)) + total e.calls (fun s => pdPixelsOf s (some v)) - total e.calls (fun s => pixelsOf s (some v) (some v))))
      (f' := fun v => ratio (total e'.calls (fun s => pixelsOf s (some v) (some v))) (total e'.calls (fun s => gtPixelsOf s (some v)) + total e'.calls (fun s => pdPixelsOf s (some v)) - total e'.calls (fun s => pixelsOf s (some v) (some v)))) hiou
  · rw [more_total h, more_total h]
    have : (List.range s.size).countP (fun x => decide (itemAt s.gts x = itemAt s.pds x)) = s.size := by
      conv_rhs => rw [← List.length_range (n := s.size)]
      rw [List.countP_eq_length]
      intro x hx
      exact decide_eq_true (hr x (List.mem_range.1 hx))
    rw [this]
    exact quot_grows (right_le e.calls)
  · intro hseen
    have hN' : (Loader.init.addAll e'.calls).labels.Perm (e.labels ++ N) := hN
    rw [(hN'.map _).sum_eq, hN'.length_eq]
    refine mean_grows hne (fun v _ => hiou v) (fun v _ => ratio_le_one ?_) ?_
    · obtain ⟨b1, b2⟩ := both_le e.calls v
      omega
    · intro v hv
      obtain ⟨h1, it, hit, hl⟩ := hnew v hv
      obtain ⟨z1, z2⟩ := unknown_pixels h1
      have z3 := (both_le e.calls v).1
      rw [z1] at z3
      obtain ⟨x, hx, hxl⟩ := hseen it hit
      have hpos : 0 < gtPixelsOf s (some v) := by
        unfold gtPixelsOf
        exact List.countP_pos_iff.2 ⟨x, List.mem_range.2 hx, decide_eq_true (hl ▸ hxl)⟩
      rw [more_total h, more_total h, more_total h, hb, hd, z1, z2, Nat.le_zero.1 z3, Nat.zero_add, Nat.add_sub_cancel, ratio_self, if_neg (by omega)]

/-- **C129 (wrong).** One more image in which no labelled pixel is predicted correctly raises precision, recall, F1 and IoU of no label, and not the mean IoU;
and not the accuracy, if no pixel is background on both sides. -/
theorem C129_wrong {e e' : Built} {s : Seg} (h : OneMoreImage e e' s) (hok : ∀ s ∈ e'.calls.flatten, SegOk s)
    (hs : (e'.calls.flatten.map Seg.size).sum < 2 ^ 64) (hne : e.labels ≠ []) (hr : NoneFound s) :
    ∃ R R', e.report = .ok R ∧ e'.report = .ok R' ∧ NotLower "Precision" R'.precision R.precision ∧ NotLower "Recall" R'.recall R.recall ∧
      NotLower "F1" R'.f1 R.f1 ∧ NotLower "IOU" R'.iou R.iou ∧
      (∃ a a', R.accuracy = [⟨"Accuracy", .number (some a), none⟩] ∧ R'.accuracy = [⟨"Accuracy", .number (some a'), none⟩] ∧
        ((∀ x < s.size, itemAt s.gts x ≠ itemAt s.pds x) → a' ≤ a)) ∧
      ∃ m m', R.meanIou = [⟨"mIOU", .number (some m), none⟩] ∧ R'.meanIou = [⟨"mIOU", .number (some m'), none⟩] ∧ m' ≤ m := by
  have hok1 : ∀ s ∈ e.calls.flatten, SegOk s := fun s hsm => hok s (h.mem_iff.2 (List.mem_cons_of_mem _ hsm))
  have hs1 : (e.calls.flatten.map Seg.size).sum < 2 ^ 64 := by
    have := more_total h Seg.size
    unfold total at this
    omega
  obtain ⟨N, hN, hnew⟩ := more_labels h
  have hne' : e'.labels ≠ [] := by
    intro h0
    rw [h0] at hN
    exact hne (List.append_eq_nil_iff.1 hN.symm.eq_nil).1
  obtain ⟨n1, R, e1, a1, c1, m1, p1, r1, f1, i1⟩ := C65_report e.calls hok1 hs1 e.stored hne
  obtain ⟨n2, R', e2, a2, c2, m2, p2, r2, f2, i2⟩ := C65_report e'.calls hok hs e'.stored hne'
  dsimp only at a1 m1 p1 r1 f1 i1 a2 m2 p2 r2 f2 i2
  have hb : ∀ v, pixelsOf s (some v) (some v) = 0 := none_found hr
  have hiou : ∀ v, ratio (total e'.calls (fun s => pixelsOf s (some v) (some v)))
      (total e'.calls (fun s => gtPixelsOf s (some v)) + total e'.calls (fun s => pdPixelsOf s (some v)) - total e'.calls (fun s => pixelsOf s (some v) (some v)))
      ≤ ratio (total e.calls (fun s => pixelsOf s (some v) (some v)))
      (total e.calls (fun s => gtPixelsOf s (some v)) + total e.calls (fun s => pdPixelsOf s (some v)) - total e.calls (fun s => pixelsOf s (some v) (some v))) := by
    intro v
    obtain ⟨b1, b2⟩ := both_le e.calls v
    rw [more_total h, more_total h, more_total h, hb]
    refine Eq.trans_le ?_ (quot_shrinks' (by omega) (gtPixelsOf s (some v) + pdPixelsOf s (some v)))
    congr 1
    omega
  refine ⟨R, R', e1, e2, ?_, ?_, ?_, ?_, ⟨_, _, a1, a2, ?_⟩, _, _, m1, m2, ?_⟩
  · rw [p1, p2]
    refine notLower_of (f := fun v => ratio (total e'.calls (fun s => pixelsOf s (some v) (some v))) (total e'.calls (fun s => pdPixelsOf s (some v))))
      (f' := fun v => ratio (total e.calls (fun s => pixelsOf s (some v) (some v))) (total e.calls (fun s => pdPixelsOf s (some v)))) fun v => ?_
    rw [more_total h, more_total h, hb]
    exact quot_shrinks' (both_le e.calls v).2 _
  · rw [r1, r2]
    refine notLower_of (f := fun v => ratio (total e'.calls (fun s => pixelsOf s (some v) (some v))) (total e'.calls (fun s => gtPixelsOf s (some v))))
      (f' := fun v => ratio (total e.calls (fun s => pixelsOf s (some v) (some v))) (total e.calls (fun s => gtPixelsOf s (some v)))) fun v => ?_
    rw [more_total h, more_total h, hb]
    exact quot_shrinks' (both_le e.calls v).1 _
  · rw [f1, f2]
    refine notLower_of (f := fun v => ratio (2 * total e'.calls (fun s => pixelsOf s (some v) (some v))) (total e'.calls (fun s => gtPixelsOf s (some v)) + total e'.calls (fun s => pdPixelsOf s (some v))))
      (f' := fun v => ratio (2 * total e.calls (fun s => pixelsOf s (some v) (some v))) (total e.calls (fun s => gtPixelsOf s (some v)) + total e.calls (fun s => pdPixelsOf s (some v)))) fun v => ?_
    obtain ⟨b1, b2⟩ := both_le e.calls v
    rw [more_total h, more_total h, more_total h, hb]
    refine Eq.trans_le ?_ (quot_shrinks' (by omega) (gtPixelsOf s (some v) + pdPixelsOf s (some v)))
    congr 1
    omega
  · rw [i1, i2]
    exact notLower_of (f := fun v => ratio (total e'.calls (fun s => pixelsOf s (some v) (some v))) (total e'.calls (fun s => gtPixelsOf s (some v)) + total e'.calls (fun s => pdPixelsOf s (some v)) - total e'.calls (fun s => pixelsOf s (some v) (some v))))
      (f' := fun v => ratio (total e.calls (fun s => pixelsOf s (some v) (some v))) (total e.calls (fun s => gtPixelsOf s (some v)) + total e.calls (fun s => pdPixelsOf s (some v)) - total e.calls (fun s => pixelsOf s (some v) (some v)))) hiou
  · intro hall
    rw [more_total h, more_total h]
    have : (List.range s.size).countP (fun x => decide (itemAt s.gts x = itemAt s.pds x)) = 0 := by
      rw [List.countP_eq_zero]
      intro x hx hd
      exact hall x (List.mem_range.1 hx) (of_decide_eq_true hd)
    rw [this]
    exact quot_shrinks' (right_le e.calls) _
  · have hN' : (Loader.init.addAll e'.calls).labels.Perm (e.labels ++ N) := hN
    rw [(hN'.map _).sum_eq, hN'.length_eq]
    refine mean_shrinks hne (fun v _ => hiou v) (fun v _ => quot_nonneg _ _) ?_
    intro v hv
    have z3 := (both_le e.calls v).1
    rw [(unknown_pixels (hnew v hv).1).1] at z3
    rw [more_total h, hb, Nat.le_zero.1 z3]
    unfold ratio
    split <;> simp

/-- One image whose only pixel is found. -/
def onePixel : Seg := ⟨"u", 1, [⟨[true], "x", none⟩], [⟨[true], "x", none⟩], none⟩

/-- The same with a second mask that holds no pixel. -/
def emptyMask : Seg := ⟨"v", 1, [⟨[true], "x", none⟩, ⟨[false], "y", none⟩], [⟨[true], "x", none⟩], none⟩

theorem onePixel_ok : SegOk onePixel := ⟨⟨by simp [onePixel], by simp [Disjoint, onePixel], by decide⟩, ⟨by simp [onePixel], by simp [Disjoint, onePixel], by decide⟩⟩

theorem emptyMask_ok : SegOk emptyMask := by
  refine ⟨⟨by simp [emptyMask], ?_, by decide⟩, ⟨by simp [emptyMask], by simp [Disjoint, emptyMask], by decide⟩⟩
  refine List.pairwise_pair.2 fun x hx => ?_
  rcases x with _ | x <;> simp [bit] at hx

/-- **C129 (violation).** The mean IoU can fall although every pixel of the further image is predicted correctly: an empty mask with a new label gets IoU 0. -/
theorem C129_violation : ¬ ∀ (e e' : Built) (s : Seg), OneMoreImage e e' s → (∀ s ∈ e'.calls.flatten, SegOk s) →
    (e'.calls.flatten.map Seg.size).sum < 2 ^ 64 → e.labels ≠ [] → SameEverywhere s →
    ∀ R R' m m', e.report = .ok R → e'.report = .ok R' → R.meanIou = [⟨"mIOU", .number (some m), none⟩] → R'.meanIou = [⟨"mIOU", .number (some m'), none⟩] →
      m ≤ m' := by
  intro h
  have := h ⟨[[onePixel]], _, List.Perm.refl _⟩ ⟨[[onePixel, emptyMask]], _, List.Perm.refl _⟩ emptyMask (by unfold OneMoreImage; decide +kernel)
    (by
      intro s hs
      simp only [List.flatten_cons, List.flatten_nil, List.append_nil, List.mem_cons, List.not_mem_nil, or_false] at hs
      rcases hs with rfl | rfl
      · exact onePixel_ok
      · exact emptyMask_ok)
    (by decide +kernel) (by decide +kernel) (by unfold SameEverywhere; decide +kernel) _ _ 1 (1 / 2) rfl rfl (by decide +kernel) (by decide +kernel)
  norm_num at this

/-- The hypotheses of `C129_right_partial` and of `C129_wrong` hold for one more image that is found, or missed, beside a half found one. -/
example : ∃ e e' e'' : Built, ∃ s s' : Seg, OneMoreImage e e' s ∧ SameEverywhere s ∧ (∀ it ∈ s.gts ++ s.pds, ∃ x < s.size, itemAt s.gts x = some it.label) ∧
    OneMoreImage e e'' s' ∧ NoneFound s' ∧ (∀ x < s'.size, itemAt s'.gts x ≠ itemAt s'.pds x) ∧ (∀ s ∈ e'.calls.flatten, SegOk s) ∧ (∀ s ∈ e''.calls.flatten, SegOk s) ∧
    (e'.calls.flatten.map Seg.size).sum < 2 ^ 64 ∧ (e''.calls.flatten.map Seg.size).sum < 2 ^ 64 ∧ e.labels = ["x"] ∧ e''.labels = ["x", "y"] := by
  refine ⟨⟨[[⟨"v", 2, [⟨[true, false], "x", none⟩], [⟨[true, true], "x", none⟩], none⟩]], _, List.Perm.refl _⟩,
    ⟨[[⟨"v", 2, [⟨[true, false], "x", none⟩], [⟨[true, true], "x", none⟩], none⟩], [onePixel]], _, List.Perm.refl _⟩,
    ⟨[[⟨"v", 2, [⟨[true, false], "x", none⟩], [⟨[true, true], "x", none⟩], none⟩], [⟨"w", 1, [⟨[true], "x", none⟩], [⟨[true], "y", none⟩], none⟩]], _, List.Perm.refl _⟩,
    onePixel, ⟨"w", 1, [⟨[true], "x", none⟩], [⟨[true], "y", none⟩], none⟩, by unfold OneMoreImage; decide +kernel, by unfold SameEverywhere; decide +kernel,
    by decide +kernel, by unfold OneMoreImage; decide +kernel, by unfold NoneFound; decide +kernel, by decide +kernel, ?_, ?_, by decide +kernel, by decide +kernel,
    by decide +kernel, by decide +kernel⟩
  · intro s hs
    simp only [List.flatten_cons, List.flatten_nil, List.append_nil, List.cons_append, List.nil_append, List.mem_cons, List.not_mem_nil, or_false] at hs
    rcases hs with rfl | rfl
    · exact ⟨⟨by simp, by simp [Disjoint], by decide⟩, ⟨by simp, by simp [Disjoint], by decide⟩⟩
    · exact onePixel_ok
  · intro s hs
    simp only [List.flatten_cons, List.flatten_nil, List.append_nil, List.cons_append, List.nil_append, List.mem_cons, List.not_mem_nil, or_false] at hs
    rcases hs with rfl | rfl <;> exact ⟨⟨by simp, by simp [Disjoint], by decide⟩, ⟨by simp, by simp [Disjoint], by decide⟩⟩

end Verif.Segmentation
