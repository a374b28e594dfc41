import Verif.Detection.Iou
import Mathlib.MeasureTheory.Measure.Lebesgue.Basic
import Mathlib.MeasureTheory.Measure.Real
import Mathlib.Tactic.Linarith
import Mathlib.Tactic.FieldSimp
import Mathlib.Tactic.Ring

/-! # C24, C25: IoU is an overlap measure -/

namespace Verif.Detection

open MeasureTheory

/-! ## C24 -/

/-- Minimum before maximum on both axes. -/
def Box.Proper (b : Box) : Prop := b.xmin ≤ b.xmax ∧ b.ymin ≤ b.ymax

/-- The points of the plane covered by a box. -/
def Box.region (b : Box) : Set (ℝ × ℝ) :=
  Set.Icc (b.xmin : ℝ) b.xmax ×ˢ Set.Icc (b.ymin : ℝ) b.ymax

theorem area_rect (a b c d : ℝ) :
    volume.real (Set.Icc a b ×ˢ Set.Icc c d : Set (ℝ × ℝ)) = max 0 (b - a) * max 0 (d - c) := by
  rw [Measure.real, Measure.volume_eq_prod, Measure.prod_prod, Real.volume_Icc, Real.volume_Icc,
    ENNReal.toReal_mul, ENNReal.toReal_ofReal', ENNReal.toReal_ofReal', max_comm, max_comm (d - c)]

theorem Box.area {b : Box} (h : b.Proper) :
    volume.real b.region = (((b.xmax - b.xmin) * (b.ymax - b.ymin) : Rat) : ℝ) := by
  unfold Box.region
  have h1 : (b.xmin : ℝ) ≤ b.xmax := by exact_mod_cast h.1
  have h2 : (b.ymin : ℝ) ≤ b.ymax := by exact_mod_cast h.2
  rw [area_rect, max_eq_right (by linarith), max_eq_right (by linarith)]
  push_cast
  rfl

/-- The rational the code calls `intersection_area`. -/
def interArea (a b : Box) : Rat :=
  max 0 (min a.xmax b.xmax - max a.xmin b.xmin) * max 0 (min a.ymax b.ymax - max a.ymin b.ymin)

/-- The rational the code calls `union_area`. -/
def unionArea (a b : Box) : Rat :=
  (a.xmax - a.xmin) * (a.ymax - a.ymin) + (b.xmax - b.xmin) * (b.ymax - b.ymin) - interArea a b

theorem bboxIou_eq (a b : Box) : bboxIou a b = if unionArea a b ≥ EPSILON then interArea a b / unionArea a b else 0 := rfl

theorem area_inter (a b : Box) : volume.real (a.region ∩ b.region) = (interArea a b : ℝ) := by
  unfold Box.region interArea
  rw [Set.prod_inter_prod, Set.Icc_inter_Icc, Set.Icc_inter_Icc, area_rect]
  push_cast
  rfl

theorem region_lt_top (b : Box) : volume b.region ≠ ⊤ := by
  unfold Box.region
  rw [Measure.volume_eq_prod, Measure.prod_prod, Real.volume_Icc, Real.volume_Icc]
  exact ENNReal.mul_ne_top ENNReal.ofReal_ne_top ENNReal.ofReal_ne_top

theorem region_measurable (b : Box) : MeasurableSet b.region :=
  measurableSet_Icc.prod measurableSet_Icc

theorem area_union {a b : Box} (ha : a.Proper) (hb : b.Proper) :
    volume.real (a.region ∪ b.region) = (unionArea a b : ℝ) := by
  have := measureReal_union_add_inter (μ := volume) (s := a.region) (t := b.region) (region_measurable b)
    (region_lt_top a) (region_lt_top b)
  rw [area_inter, Box.area ha, Box.area hb] at this
  unfold unionArea
  push_cast at this ⊢
  linarith

/-- **C24 (definition).** For proper boxes whose union has an area of at least 1e-9, the IoU is the area
(Lebesgue measure) of the common region divided by the area of the union. -/
theorem C24_definition {a b : Box} (ha : a.Proper) (hb : b.Proper)
    (hu : (EPSILON : ℝ) ≤ volume.real (a.region ∪ b.region)) :
    ((bboxIou a b : Rat) : ℝ) = volume.real (a.region ∩ b.region) / volume.real (a.region ∪ b.region) := by
  rw [area_union ha hb] at hu ⊢
  rw [area_inter, bboxIou_eq, if_pos (by exact_mod_cast hu)]
  push_cast
  rfl

/-- **C24 (below the guard).** Boxes whose union is smaller than 1e-9 have IoU 0. -/
theorem C24_tiny {a b : Box} (ha : a.Proper) (hb : b.Proper)
    (hu : volume.real (a.region ∪ b.region) < (EPSILON : ℝ)) : bboxIou a b = 0 := by
  rw [area_union ha hb] at hu
  rw [bboxIou_eq, if_neg]
  rw [not_le]
  exact_mod_cast hu

theorem bboxIou_comm (a b : Box) : bboxIou a b = bboxIou b a := by
  have h1 : interArea a b = interArea b a := by
    unfold interArea
    rw [min_comm a.xmax, min_comm a.ymax, max_comm a.xmin, max_comm a.ymin]
  have h2 : unionArea a b = unionArea b a := by
    unfold unionArea
    rw [h1]
    ring
  rw [bboxIou_eq, bboxIou_eq, h1, h2]

/-- The common region is part of each box; without the assumption that boxes are proper. -/
theorem interArea_le (a b : Box) : 0 ≤ interArea a b ∧ (interArea a b ≠ 0 → interArea a b ≤
    (a.xmax - a.xmin) * (a.ymax - a.ymin) ∧ interArea a b ≤ (b.xmax - b.xmin) * (b.ymax - b.ymin)) := by
  unfold interArea
  refine ⟨mul_nonneg (le_max_left _ _) (le_max_left _ _), ?_⟩
  intro h
  have hw : 0 < min a.xmax b.xmax - max a.xmin b.xmin := by
    by_contra hcon
    apply h
    rw [max_eq_left (not_lt.1 hcon), zero_mul]
  have hh : 0 < min a.ymax b.ymax - max a.ymin b.ymin := by
    by_contra hcon
    apply h
    rw [max_eq_left (not_lt.1 hcon), mul_zero]
  rw [max_eq_right hw.le, max_eq_right hh.le]
  have e1 := min_le_left a.xmax b.xmax
  have e2 := min_le_right a.xmax b.xmax
  have e3 := min_le_left a.ymax b.ymax
  have e4 := min_le_right a.ymax b.ymax
  have e5 := le_max_left a.xmin b.xmin
  have e6 := le_max_right a.xmin b.xmin
  have e7 := le_max_left a.ymin b.ymin
  have e8 := le_max_right a.ymin b.ymin
  constructor
  · apply mul_le_mul <;> linarith
  · apply mul_le_mul <;> linarith

theorem eps_pos : 0 < EPSILON := by unfold EPSILON; norm_num

/-- **C24 (range).** IoU is in [0, 1] for any two boxes, proper or not. -/
theorem C24_range (a b : Box) : 0 ≤ bboxIou a b ∧ bboxIou a b ≤ 1 := by
  rw [bboxIou_eq]
  obtain ⟨h0, h1⟩ := interArea_le a b
  split
  · rename_i hu
    have hpos : 0 < unionArea a b := lt_of_lt_of_le eps_pos hu
    refine ⟨div_nonneg h0 hpos.le, ?_⟩
    rw [div_le_one hpos]
    by_cases hz : interArea a b = 0
    · rw [hz]; exact hpos.le
    · obtain ⟨h2, h3⟩ := h1 hz
      unfold unionArea
      linarith
  · exact ⟨le_refl _, zero_le_one⟩

/-- **C24 (symmetry).** -/
theorem C24_symmetric (a b : Box) : bboxIou a b = bboxIou b a := bboxIou_comm a b

/-- **C24 (zero).** For proper boxes with a union of at least 1e-9: IoU is 0 exactly when the boxes have
no common area. -/
theorem C24_zero {a b : Box} (ha : a.Proper) (hb : b.Proper)
    (hu : (EPSILON : ℝ) ≤ volume.real (a.region ∪ b.region)) :
    bboxIou a b = 0 ↔ volume.real (a.region ∩ b.region) = 0 := by
  have h := C24_definition ha hb hu
  have hpos : 0 < volume.real (a.region ∪ b.region) := lt_of_lt_of_le (by exact_mod_cast eps_pos) hu
  constructor
  · intro h0
    rw [h0] at h
    push_cast at h
    rcases div_eq_zero_iff.1 h.symm with h | h
    · exact h
    · exact absurd h hpos.ne'
  · intro h0
    rw [h0, zero_div] at h
    exact_mod_cast h

/-- **C24 (one).** For proper boxes with an area of at least 1e-9 each: IoU is 1 exactly when the boxes
are identical. -/
theorem C24_one {a b : Box} (ha : a.Proper) (hb : b.Proper)
    (hA : EPSILON ≤ (a.xmax - a.xmin) * (a.ymax - a.ymin)) (hB : EPSILON ≤ (b.xmax - b.xmin) * (b.ymax - b.ymin)) :
    bboxIou a b = 1 ↔ a = b := by
  have hEp := eps_pos
  constructor
  · intro h1
    rw [bboxIou_eq] at h1
    split at h1
    · rename_i hu
      have hpos : 0 < unionArea a b := lt_of_lt_of_le eps_pos hu
      rw [div_eq_one_iff_eq hpos.ne'] at h1
      have hne : interArea a b ≠ 0 := by rw [h1]; exact hpos.ne'
      obtain ⟨h2, h3⟩ := (interArea_le a b).2 hne
      have h4 : interArea a b = (a.xmax - a.xmin) * (a.ymax - a.ymin) := by
        unfold unionArea at h1; linarith
      have h5 : interArea a b = (b.xmax - b.xmin) * (b.ymax - b.ymin) := by
        unfold unionArea at h1; linarith
      have key : ∀ w h W H : Rat, 0 < w → 0 < h → w ≤ W → h ≤ H → w * h = W * H → w = W ∧ h = H := by
        intro w h W H hw hh hW hH he
        have hw' : w = W := by
          by_contra hcon
          have hlt := lt_of_le_of_ne hW hcon
          have : w * h < W * H := mul_lt_mul hlt hH hh (by linarith)
          linarith
        refine ⟨hw', ?_⟩
        rw [hw'] at he
        exact mul_left_cancel₀ (by linarith) he
      have hw : 0 < min a.xmax b.xmax - max a.xmin b.xmin := by
        by_contra hcon
        apply hne
        unfold interArea
        rw [max_eq_left (not_lt.1 hcon), zero_mul]
      have hh : 0 < min a.ymax b.ymax - max a.ymin b.ymin := by
        by_contra hcon
        apply hne
        unfold interArea
        rw [max_eq_left (not_lt.1 hcon), mul_zero]
      unfold interArea at h4 h5
      rw [max_eq_right hw.le, max_eq_right hh.le] at h4 h5
      have e1 := min_le_left a.xmax b.xmax
      have e2 := min_le_right a.xmax b.xmax
      have e3 := min_le_left a.ymax b.ymax
      have e4 := min_le_right a.ymax b.ymax
      have e5 := le_max_left a.xmin b.xmin
      have e6 := le_max_right a.xmin b.xmin
      have e7 := le_max_left a.ymin b.ymin
      have e8 := le_max_right a.ymin b.ymin
      obtain ⟨k1, k2⟩ := key _ _ _ _ hw hh (by linarith) (by linarith) h4
      obtain ⟨k3, k4⟩ := key _ _ _ _ hw hh (by linarith) (by linarith) h5
      have f1 : a.xmin = b.xmin := by linarith
      have f2 : a.xmax = b.xmax := by linarith
      have f3 : a.ymin = b.ymin := by linarith
      have f4 : a.ymax = b.ymax := by linarith
      cases a; cases b
      simp only [Box.mk.injEq]
      exact ⟨f1, f2, f3, f4⟩
    · exact absurd h1 (by norm_num)
  · rintro rfl
    have hi : interArea a a = (a.xmax - a.xmin) * (a.ymax - a.ymin) := by
      unfold interArea
      rw [min_self, min_self, max_self, max_self, max_eq_right (by linarith [ha.1]), max_eq_right (by linarith [ha.2])]
    have hu : unionArea a a = (a.xmax - a.xmin) * (a.ymax - a.ymin) := by
      unfold unionArea; rw [hi]; ring
    rw [bboxIou_eq, hi, hu, if_pos hA]
    exact div_self (by linarith)

/-- The hypotheses hold for ordinary boxes; the IoU of two overlapping unit-height boxes. -/
example : (⟨0, 2, 0, 1⟩ : Box).Proper ∧ (⟨1, 3, 0, 1⟩ : Box).Proper ∧ bboxIou ⟨0, 2, 0, 1⟩ ⟨1, 3, 0, 1⟩ = 1 / 3 ∧
    EPSILON ≤ ((2 : Rat) - 0) * (1 - 0) := by
  unfold Box.Proper
  decide +kernel

/-- `C24_tiny`: two boxes of a millionth of a unit, far from empty, whose union is below the bound. -/
example : volume.real ((⟨0, 1 / 10 ^ 6, 0, 1 / 10 ^ 6⟩ : Box).region ∪ (⟨0, 1 / 10 ^ 6, 0, 1 / 10 ^ 6⟩ : Box).region) < (EPSILON : ℝ) ∧
    bboxIou ⟨0, 1 / 10 ^ 6, 0, 1 / 10 ^ 6⟩ ⟨0, 1 / 10 ^ 6, 0, 1 / 10 ^ 6⟩ = 0 := by
  have hp : (⟨0, 1 / 10 ^ 6, 0, 1 / 10 ^ 6⟩ : Box).Proper := by unfold Box.Proper; decide +kernel
  have h : volume.real ((⟨0, 1 / 10 ^ 6, 0, 1 / 10 ^ 6⟩ : Box).region ∪ (⟨0, 1 / 10 ^ 6, 0, 1 / 10 ^ 6⟩ : Box).region) < (EPSILON : ℝ) := by
    rw [area_union hp hp]
    have : unionArea ⟨0, 1 / 10 ^ 6, 0, 1 / 10 ^ 6⟩ ⟨0, 1 / 10 ^ 6, 0, 1 / 10 ^ 6⟩ < EPSILON := by decide +kernel
    exact_mod_cast this
  exact ⟨h, C24_tiny hp hp h⟩

/-! ## C25 -/

/-- The pixels set in a mask. -/
def pixels (m : List Bool) : Finset Nat := (Finset.range m.length).filter (fun i => m[i]? = some true)

theorem popcount_pixels (m : List Bool) : popcount m = (pixels m).card := by
  induction m using List.reverseRecOn with
  | nil => rfl
  | append_singleton m x ih =>
    unfold popcount at ih ⊢
    rw [List.countP_append, ih]
    unfold pixels
    rw [List.length_append, List.length_singleton, Finset.range_add_one, Finset.filter_insert]
    have h1 : (Finset.range m.length).filter (fun i => (m ++ [x])[i]? = some true)
        = (Finset.range m.length).filter (fun i => m[i]? = some true) := by
      apply Finset.filter_congr
      intro i hi
      rw [List.getElem?_append_left (Finset.mem_range.1 hi)]
    rw [h1, List.getElem?_concat_length]
    cases x with
    | true => rw [if_pos rfl, Finset.card_insert_of_notMem (by simp)]; rfl
    | false => rw [if_neg (by simp)]; rfl

theorem pixels_and {a b : List Bool} (h : a.length = b.length) :
    pixels (List.zipWith (· && ·) a b) = pixels a ∩ pixels b := by
  ext i
  unfold pixels
  simp only [Finset.mem_filter, Finset.mem_range, Finset.mem_inter, List.length_zipWith, List.getElem?_zipWith]
  constructor
  · rintro ⟨h1, h2⟩
    have hi : i < a.length := by omega
    have hi' : i < b.length := by omega
    rw [List.getElem?_eq_getElem hi, List.getElem?_eq_getElem hi'] at h2 ⊢
    simp only [Option.some.injEq, Bool.and_eq_true] at h2 ⊢
    exact ⟨⟨hi, h2.1⟩, ⟨hi', h2.2⟩⟩
  · rintro ⟨⟨h1, h2⟩, ⟨h3, h4⟩⟩
    exact ⟨by omega, by rw [h2, h4]; rfl⟩

/-- **C25 (definition).** For masks of the same size, not both empty, the IoU is the number of common
pixels divided by the number of pixels in either. -/
theorem C25_definition {a b : List Bool} (h : a.length = b.length) (hne : (pixels a ∪ pixels b).Nonempty) :
    bitmaskIou a b = ((pixels a ∩ pixels b).card : Rat) / ((pixels a ∪ pixels b).card : Rat) := by
  unfold bitmaskIou
  dsimp only
  rw [popcount_pixels, popcount_pixels, popcount_pixels, pixels_and h]
  have hu : ((pixels a).card : Rat) + (pixels b).card - (pixels a ∩ pixels b).card = (pixels a ∪ pixels b).card := by
    have := Finset.card_union_add_card_inter (pixels a) (pixels b)
    have : (((pixels a ∪ pixels b).card + (pixels a ∩ pixels b).card : Nat) : Rat)
        = ((pixels a).card + (pixels b).card : Nat) := by rw [this]
    push_cast at this
    linarith
  rw [hu, if_pos]
  have : 1 ≤ (pixels a ∪ pixels b).card := Finset.card_pos.2 hne
  have : (1 : Rat) ≤ (pixels a ∪ pixels b).card := by exact_mod_cast this
  unfold EPSILON
  show (1 / 1000000000 : Rat) ≤ _
  linarith

/-- **C25 (range).** For masks of the same size, also empty ones. -/
theorem C25_range {a b : List Bool} (h : a.length = b.length) : 0 ≤ bitmaskIou a b ∧ bitmaskIou a b ≤ 1 := by
  by_cases hne : (pixels a ∪ pixels b).Nonempty
  · rw [C25_definition h hne]
    have hpos : (0 : Rat) < (pixels a ∪ pixels b).card := by exact_mod_cast Finset.card_pos.2 hne
    refine ⟨div_nonneg (by positivity) hpos.le, ?_⟩
    rw [div_le_one hpos]
    have := Finset.card_le_card (Finset.inter_subset_union (s := pixels a) (t := pixels b))
    exact_mod_cast this
  · rw [Finset.not_nonempty_iff_eq_empty, Finset.union_eq_empty] at hne
    have h0 : popcount (List.zipWith (· && ·) a b) = 0 := by
      rw [popcount_pixels, pixels_and h, hne.1]; simp
    unfold bitmaskIou
    dsimp only
    rw [h0, popcount_pixels, popcount_pixels, hne.1, hne.2]
    simp only [Finset.card_empty, Nat.cast_zero, zero_div, add_zero, sub_zero, ite_self]
    exact ⟨le_refl _, zero_le_one⟩

/-- **C25 (symmetry).** -/
theorem C25_symmetric (a b : List Bool) : bitmaskIou a b = bitmaskIou b a := by
  unfold bitmaskIou
  dsimp only
  have h1 : List.zipWith (· && ·) a b = List.zipWith (· && ·) b a := by
    rw [List.zipWith_comm]
    congr 1
    funext x y
    exact Bool.and_comm _ _
  rw [h1, add_comm (popcount a : Rat)]

/-- **C25 (zero).** IoU is 0 exactly for masks without a common pixel. -/
theorem C25_zero {a b : List Bool} (h : a.length = b.length) (hne : (pixels a ∪ pixels b).Nonempty) :
    bitmaskIou a b = 0 ↔ Disjoint (pixels a) (pixels b) := by
  rw [C25_definition h hne, div_eq_zero_iff, Finset.disjoint_iff_inter_eq_empty, ← Finset.card_eq_zero]
  constructor
  · rintro (h | h)
    · exact_mod_cast h
    · have : (pixels a ∪ pixels b).card = 0 := by exact_mod_cast h
      exact absurd (Finset.card_eq_zero.1 this) hne.ne_empty
  · intro h
    left
    exact_mod_cast h

theorem pixels_inj {a b : List Bool} (h : a.length = b.length) (he : pixels a = pixels b) : a = b := by
  apply List.ext_getElem h
  intro i h1 h2
  have := Finset.ext_iff.1 he i
  unfold pixels at this
  simp only [Finset.mem_filter, Finset.mem_range, h1, h2, true_and, List.getElem?_eq_getElem,
    Option.some.injEq] at this
  exact Bool.eq_iff_iff.2 this

/-- **C25 (one).** IoU is 1 exactly for equal masks. -/
theorem C25_one {a b : List Bool} (h : a.length = b.length) (hne : (pixels a ∪ pixels b).Nonempty) :
    bitmaskIou a b = 1 ↔ a = b := by
  have hpos : (0 : Rat) < (pixels a ∪ pixels b).card := by exact_mod_cast Finset.card_pos.2 hne
  rw [C25_definition h hne, div_eq_one_iff_eq hpos.ne']
  constructor
  · intro he
    have he' : (pixels a ∪ pixels b).card ≤ (pixels a ∩ pixels b).card := by
      have : (pixels a ∩ pixels b).card = (pixels a ∪ pixels b).card := by exact_mod_cast he
      omega
    have := Finset.eq_of_subset_of_card_le Finset.inter_subset_union he'
    apply pixels_inj h
    apply Finset.Subset.antisymm
    · intro x hx
      have : x ∈ pixels a ∩ pixels b := by rw [this]; exact Finset.mem_union_left _ hx
      exact (Finset.mem_inter.1 this).2
    · intro x hx
      have : x ∈ pixels a ∩ pixels b := by rw [this]; exact Finset.mem_union_right _ hx
      exact (Finset.mem_inter.1 this).1
  · rintro rfl
    rw [Finset.inter_self, Finset.union_self]

example : [true, true, false].length = [false, true, true].length ∧
    (pixels [true, true, false] ∪ pixels [false, true, true]).Nonempty ∧
    bitmaskIou [true, true, false] [false, true, true] = 1 / 3 := by decide +kernel

end Verif.Detection
