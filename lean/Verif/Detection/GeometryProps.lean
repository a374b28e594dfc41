import Verif.Detection.CurveProps
import Verif.Detection.PerfectProps
import Verif.Float.Decide

/-!
# C93: the results do not depend on the coordinate system
-/

namespace Verif.Detection

/-! ## Boxes -/

/-- A box in moved coordinates. -/
def Box.moved (dx dy : Rat) (b : Box) : Box := ⟨b.xmin + dx, b.xmax + dx, b.ymin + dy, b.ymax + dy⟩

/-- A box with the unit of length changed on both axes. -/
def Box.scaled (cx cy : Rat) (b : Box) : Box := ⟨b.xmin * cx, b.xmax * cx, b.ymin * cy, b.ymax * cy⟩

/-- A box mirrored left to right. -/
def Box.mirrored (b : Box) : Box := ⟨-b.xmax, -b.xmin, b.ymin, b.ymax⟩

/-- A box with the axes exchanged. -/
def Box.transposed (b : Box) : Box := ⟨b.ymin, b.ymax, b.xmin, b.xmax⟩

/-- **C93 (moving).** Adding an offset to all coordinates leaves the IoU of any two boxes unchanged. -/
theorem C93_moved (dx dy : Rat) (a b : Box) : bboxIou (a.moved dx dy) (b.moved dx dy) = bboxIou a b := by
  have h1 : interArea (a.moved dx dy) (b.moved dx dy) = interArea a b := by
    unfold interArea Box.moved
    dsimp only
    rw [min_add_add_right, max_add_add_right, min_add_add_right, max_add_add_right, add_sub_add_right_eq_sub, add_sub_add_right_eq_sub]
  have h2 : unionArea (a.moved dx dy) (b.moved dx dy) = unionArea a b := by
    unfold unionArea
    rw [h1]
    unfold Box.moved
    ring
  rw [bboxIou_eq, bboxIou_eq, h1, h2]

/-- **C93 (mirroring).** Mirroring all boxes leaves the IoU unchanged. -/
theorem C93_mirrored (a b : Box) : bboxIou a.mirrored b.mirrored = bboxIou a b := by
  have h1 : interArea a.mirrored b.mirrored = interArea a b := by
    unfold interArea Box.mirrored
    dsimp only
    rw [min_neg_neg, max_neg_neg, neg_sub_neg]
  have h2 : unionArea a.mirrored b.mirrored = unionArea a b := by
    unfold unionArea
    rw [h1]
    unfold Box.mirrored
    ring
  rw [bboxIou_eq, bboxIou_eq, h1, h2]

/-- **C93 (exchanging the axes).** -/
theorem C93_transposed (a b : Box) : bboxIou a.transposed b.transposed = bboxIou a b := by
  have h1 : interArea a.transposed b.transposed = interArea a b := by
    unfold interArea Box.transposed
    dsimp only
    rw [mul_comm]
  have h2 : unionArea a.transposed b.transposed = unionArea a b := by
    unfold unionArea
    rw [h1]
    unfold Box.transposed
    ring
  rw [bboxIou_eq, bboxIou_eq, h1, h2]

theorem scaled_areas {cx cy : Rat} (hx : 0 < cx) (hy : 0 < cy) (a b : Box) :
    interArea (a.scaled cx cy) (b.scaled cx cy) = interArea a b * (cx * cy) ∧
    unionArea (a.scaled cx cy) (b.scaled cx cy) = unionArea a b * (cx * cy) := by
  have h1 : interArea (a.scaled cx cy) (b.scaled cx cy) = interArea a b * (cx * cy) := by
    unfold interArea Box.scaled
    dsimp only
    rw [← min_mul_of_nonneg _ _ hx.le, ← max_mul_of_nonneg _ _ hx.le, ← min_mul_of_nonneg _ _ hy.le, ← max_mul_of_nonneg _ _ hy.le,
      ← sub_mul, ← sub_mul]
    have e1 : ∀ z : Rat, max 0 (z * cx) = max 0 z * cx := fun z => by rw [max_mul_of_nonneg _ _ hx.le, zero_mul]
    have e2 : ∀ z : Rat, max 0 (z * cy) = max 0 z * cy := fun z => by rw [max_mul_of_nonneg _ _ hy.le, zero_mul]
    rw [e1, e2]
    ring
  refine ⟨h1, ?_⟩
  unfold unionArea
  rw [h1]
  unfold Box.scaled
  ring

/-- **C93 (scaling, partial).** A change of the units of length on the two axes, for instance from pixels to fractions of the image, leaves the IoU
of two boxes unchanged if their union is at least 1e-9 in both units. Missing: smaller ones, for which it is false (`C93_scale_violation`). -/
theorem C93_scaled_partial {cx cy : Rat} (hx : 0 < cx) (hy : 0 < cy) {a b : Box} (h : EPSILON ≤ unionArea a b) (h' : EPSILON ≤ unionArea a b * (cx * cy)) :
    bboxIou (a.scaled cx cy) (b.scaled cx cy) = bboxIou a b := by
  obtain ⟨h1, h2⟩ := scaled_areas hx hy a b
  rw [bboxIou_eq, bboxIou_eq, h1, h2, if_pos h', if_pos h]
  exact mul_div_mul_right _ _ (mul_pos hx hy).ne'

/-- **C93 fails for small boxes**: two equal boxes with sides of 0.00003 have IoU 0, in a unit that is 100 times smaller they have IoU 1. -/
theorem C93_scale_violation : let a : Box := ⟨0, 3 / 100000, 0, 3 / 100000⟩
    bboxIou a a = 0 ∧ bboxIou (a.scaled 100 100) (a.scaled 100 100) = 1 := by decide +kernel

/-! ## Bitmasks -/

/-- **C93 (bitmasks).** Rearranging the pixels of both masks in the same way (turning, mirroring, moving the image, another memory layout), and
repeating or removing pixels that are in neither mask, leaves the IoU unchanged. -/
theorem C93_bitmask {a b a' b' : List Bool} (h : a.length = b.length) (h' : a'.length = b'.length)
    (hp : ((a.zip b).filter (fun x => x.1 || x.2)).Perm ((a'.zip b').filter (fun x => x.1 || x.2))) : bitmaskIou a b = bitmaskIou a' b' := by
  have key : ∀ a b : List Bool, a.length = b.length →
      popcount (List.zipWith (· && ·) a b) = ((a.zip b).filter (fun x => x.1 || x.2)).countP (fun x => x.1 && x.2) ∧
      popcount a = ((a.zip b).filter (fun x => x.1 || x.2)).countP (fun x => x.1) ∧ popcount b = ((a.zip b).filter (fun x => x.1 || x.2)).countP (fun x => x.2) := by
    intro a
    induction a with
    | nil =>
      intro b hb
      have : b = [] := List.eq_nil_of_length_eq_zero hb.symm
      subst this
      exact ⟨rfl, rfl, rfl⟩
    | cons x a ih =>
      intro b hb
      cases b with
      | nil => simp at hb
      | cons y b =>
        obtain ⟨i1, i2, i3⟩ := ih b (by simpa using hb)
        unfold popcount at *
        rw [List.zipWith_cons_cons, List.zip_cons_cons, List.countP_cons, List.countP_cons, List.countP_cons, List.filter_cons, i1, i2, i3]
        cases x <;> cases y <;> simp
  obtain ⟨k1, k2, k3⟩ := key a b h
  obtain ⟨l1, l2, l3⟩ := key a' b' h'
  unfold bitmaskIou
  rw [k1, k2, k3, l1, l2, l3, hp.countP_eq, hp.countP_eq, hp.countP_eq]

/-- A mask with each pixel repeated `k` times. -/
def enlarged (k : Nat) (m : List Bool) : List Bool := m.flatMap (List.replicate k)

theorem popcount_enlarged (k : Nat) (m : List Bool) : popcount (enlarged k m) = k * popcount m := by
  unfold popcount enlarged
  induction m with
  | nil => simp
  | cons x m ih =>
    rw [List.flatMap_cons, List.countP_append, ih, List.countP_cons, List.countP_replicate]
    cases x <;> simp
    ring

theorem enlarged_and (k : Nat) : ∀ a b : List Bool, List.zipWith (· && ·) (enlarged k a) (enlarged k b) = enlarged k (List.zipWith (· && ·) a b)
  | [], _ => by simp [enlarged]
  | _ :: _, [] => by simp [enlarged]
  | x :: a, y :: b => by
    have := enlarged_and k a b
    unfold enlarged at *
    rw [List.flatMap_cons, List.flatMap_cons, List.zipWith_append (by simp), this, List.zipWith_cons_cons, List.flatMap_cons]
    simp

/-- **C93 (resolution).** Masks in a `k` times higher resolution have the same IoU. -/
theorem C93_enlarged {k : Nat} (hk : 0 < k) {a b : List Bool} (h : a.length = b.length) : bitmaskIou (enlarged k a) (enlarged k b) = bitmaskIou a b := by
  unfold bitmaskIou
  dsimp only
  rw [enlarged_and, popcount_enlarged, popcount_enlarged, popcount_enlarged]
  have hi : popcount (List.zipWith (· && ·) a b) ≤ popcount a ∧ popcount (List.zipWith (· && ·) a b) ≤ popcount b := by
    clear hk
    induction a generalizing b with
    | nil => simp [popcount]
    | cons x a ih =>
      cases b with
      | nil => simp at h
      | cons y b =>
        have := ih (b := b) (by simpa using h)
        unfold popcount at *
        rw [List.zipWith_cons_cons, List.countP_cons, List.countP_cons, List.countP_cons]
        cases x <;> cases y <;> simp <;> omega
  generalize popcount (List.zipWith (· && ·) a b) = i at *
  generalize popcount a = p at *
  generalize popcount b = q at *
  have hkr : (0 : Rat) < k := by exact_mod_cast hk
  have e : ((k * p : Nat) : Rat) + ((k * q : Nat) : Rat) - ((k * i : Nat) : Rat) = (k : Rat) * ((p : Rat) + q - i) := by push_cast; ring
  rw [e]
  have hn : (p : Rat) + q - i = ((p + q - i : Nat) : Rat) := by
    rw [Nat.cast_sub (by omega)]
    push_cast
    rfl
  rw [hn]
  by_cases h0 : p + q - i = 0
  · rw [h0]; simp
  · have h1 : (1 : Rat) ≤ ((p + q - i : Nat) : Rat) := by exact_mod_cast Nat.one_le_iff_ne_zero.2 h0
    have hk1 : (1 : Rat) ≤ k := by exact_mod_cast hk
    have hE : EPSILON ≤ 1 := by unfold EPSILON; norm_num
    rw [if_pos (le_trans hE h1), if_pos (le_trans hE (le_trans h1 (le_mul_of_one_le_left (by linarith) hk1)))]
    push_cast
    exact mul_div_mul_left _ _ hkr.ne'

/-! ## Boxes as bitmasks -/

/-- The mask of a box with integer corners in an image with `W` columns and `H` rows. -/
def raster (W H x1 x2 y1 y2 : Nat) : List Bool :=
  (List.range H).flatMap (fun r => (List.range W).map (fun c => decide ((x1 ≤ c ∧ c < x2) ∧ (y1 ≤ r ∧ r < y2))))

theorem range_count (n a b : Nat) (hb : b ≤ n) : (List.range n).countP (fun c => decide (a ≤ c ∧ c < b)) = b - a := by
  induction n generalizing b with
  | zero => simp; omega
  | succ n ih =>
    rw [List.range_succ, List.countP_append]
    by_cases h : b ≤ n
    · rw [ih b h]
      simp
      omega
    · have hbn : b = n + 1 := by omega
      subst hbn
      have e : (List.range n).countP (fun c => decide (a ≤ c ∧ c < n + 1)) = (List.range n).countP (fun c => decide (a ≤ c ∧ c < n)) := by
        apply List.countP_congr
        intro c hc
        rw [List.mem_range] at hc
        simp only [decide_eq_true_eq]
        omega
      rw [e, ih n (le_refl _)]
      by_cases ha : a ≤ n
      · simp [ha]; omega
      · simp [ha]; omega

theorem popcount_raster {W H x1 x2 y1 y2 : Nat} (hx : x2 ≤ W) (hy : y2 ≤ H) : popcount (raster W H x1 x2 y1 y2) = (x2 - x1) * (y2 - y1) := by
  unfold popcount raster
  rw [List.countP_flatMap]
  have e : ((List.range H).map (List.countP id ∘ fun r => (List.range W).map (fun c => decide ((x1 ≤ c ∧ c < x2) ∧ (y1 ≤ r ∧ r < y2)))))
      = (List.range H).map (fun r => if decide (y1 ≤ r ∧ r < y2) then (x2 - x1) else 0) := by
    apply List.map_congr_left
    intro r _
    rw [Function.comp_apply, List.countP_map]
    by_cases hr : y1 ≤ r ∧ r < y2
    · rw [if_pos (decide_eq_true hr), ← range_count W x1 x2 hx]
      apply List.countP_congr
      intro c _
      simp [hr]
    · rw [if_neg (by simpa using hr), List.countP_eq_zero]
      intro c _
      simp only [Function.comp_apply, id_eq, decide_eq_true_eq]
      exact fun h => hr h.2
  rw [e, ← range_count H y1 y2 hy]
  generalize List.range H = L
  induction L with
  | nil => simp
  | cons r L ih =>
    rw [List.map_cons, List.sum_cons, ih, List.countP_cons]
    split <;> ring

theorem raster_and (W H : Nat) (x1 x2 y1 y2 u1 u2 v1 v2 : Nat) :
    List.zipWith (· && ·) (raster W H x1 x2 y1 y2) (raster W H u1 u2 v1 v2) = raster W H (max x1 u1) (min x2 u2) (max y1 v1) (min y2 v2) := by
  unfold raster
  generalize List.range H = L
  induction L with
  | nil => rfl
  | cons r L ih =>
    rw [List.flatMap_cons, List.flatMap_cons, List.flatMap_cons, List.zipWith_append (by simp), ih]
    congr 1
    rw [List.zipWith_map, List.zipWith_self]
    apply List.map_congr_left
    intro c _
    rw [← Bool.decide_and, decide_eq_decide]
    simp only [max_le_iff, lt_min_iff]
    tauto

/-- **C93 (boxes and their masks).** For boxes with integer corners inside the image, the IoU of the boxes is the IoU of the masks of the pixels
that they cover: evaluating boxes and evaluating their bitmasks is the same. -/
theorem C93_raster {W H x1 x2 y1 y2 u1 u2 v1 v2 : Nat} (hx : x1 ≤ x2 ∧ x2 ≤ W) (hy : y1 ≤ y2 ∧ y2 ≤ H) (hu : u1 ≤ u2 ∧ u2 ≤ W) (hv : v1 ≤ v2 ∧ v2 ≤ H) :
    bitmaskIou (raster W H x1 x2 y1 y2) (raster W H u1 u2 v1 v2) = bboxIou ⟨x1, x2, y1, y2⟩ ⟨u1, u2, v1, v2⟩ := by
  have h1 : interArea ⟨x1, x2, y1, y2⟩ ⟨u1, u2, v1, v2⟩ = (((min x2 u2 - max x1 u1) * (min y2 v2 - max y1 v1) : Nat) : Rat) := by
    unfold interArea
    have e : ∀ a b : Nat, max (0 : Rat) ((a : Rat) - b) = ((a - b : Nat) : Rat) := by
      intro a b
      rcases Nat.le_total b a with h | h
      · rw [Nat.cast_sub h, max_eq_right]
        have : (b : Rat) ≤ a := by exact_mod_cast h
        linarith
      · rw [Nat.sub_eq_zero_of_le h, max_eq_left]
        · simp
        · have : (a : Rat) ≤ b := by exact_mod_cast h
          linarith
    dsimp only
    rw [← Nat.cast_min, ← Nat.cast_max, ← Nat.cast_min, ← Nat.cast_max, e, e, ← Nat.cast_mul]
  have h2 : unionArea ⟨x1, x2, y1, y2⟩ ⟨u1, u2, v1, v2⟩ = (((x2 - x1) * (y2 - y1) : Nat) : Rat) + (((u2 - u1) * (v2 - v1) : Nat) : Rat)
      - (((min x2 u2 - max x1 u1) * (min y2 v2 - max y1 v1) : Nat) : Rat) := by
    unfold unionArea
    rw [h1]
    dsimp only
    rw [Nat.cast_mul (x2 - x1), Nat.cast_mul (u2 - u1), Nat.cast_sub hx.1, Nat.cast_sub hy.1, Nat.cast_sub hu.1, Nat.cast_sub hv.1]
  rw [bboxIou_eq, h1, h2]
  unfold bitmaskIou
  dsimp only
  rw [raster_and, popcount_raster hx.2 hy.2, popcount_raster hu.2 hv.2,
    popcount_raster (le_trans (min_le_left _ _) hx.2) (le_trans (min_le_left _ _) hy.2)]

/-! ## Whole datasets -/

/-- A datum with bounding boxes: `gb g` is the box of ground truth `g`, `pb p` the box of prediction `p`. -/
structure BoxDatum where
  det : Det
  gb : Nat → Box
  pb : Nat → Box

/-- What the loader gets from datums with bounding boxes (`Loader.add_bounding_boxes`, `object_detection/loader.py` 194-226). -/
def boxHistory (L : List BoxDatum) : History := L.map (fun x => (x.det, fun p g => bboxIou (x.gb g) (x.pb p)))

/-- The datum with all its boxes changed. -/
def BoxDatum.map (T : Box → Box) (x : BoxDatum) : BoxDatum := ⟨x.det, fun g => T (x.gb g), fun p => T (x.pb p)⟩

theorem boxHistory_map {T : BoxDatum → Box → Box} {L : List BoxDatum}
    (h : ∀ x ∈ L, ∀ p g, bboxIou (T x (x.gb g)) (T x (x.pb p)) = bboxIou (x.gb g) (x.pb p)) :
    boxHistory (L.map (fun x => x.map (T x))) = boxHistory L := by
  unfold boxHistory
  rw [List.map_map]
  apply List.map_congr_left
  intro x hx
  exact Prod.ext rfl (funext fun p => funext fun g => h x hx p g)

/-- **C93 (datasets).** Each datum may have its own origin, be mirrored or be turned over the diagonal: the loader gets the same data, and so
everything that any evaluator reports is the same. -/
theorem C93_dataset (dx dy : BoxDatum → Rat) (L : List BoxDatum) :
    boxHistory (L.map (fun x => x.map (Box.moved (dx x) (dy x)))) = boxHistory L ∧
    boxHistory (L.map (fun x => x.map Box.mirrored)) = boxHistory L ∧
    boxHistory (L.map (fun x => x.map Box.transposed)) = boxHistory L :=
  ⟨boxHistory_map (fun x _ _ _ => C93_moved (dx x) (dy x) _ _), boxHistory_map (T := fun _ => Box.mirrored) (fun _ _ _ _ => C93_mirrored _ _),
    boxHistory_map (T := fun _ => Box.transposed) (fun _ _ _ _ => C93_transposed _ _)⟩

/-- **C93 (datasets in other units, partial).** Each datum may have its own unit on each axis (coordinates divided by the width and height of the
image) if the unions are at least 1e-9 in both units. Missing: smaller ones (`C93_scale_violation`). -/
theorem C93_units_partial {cx cy : BoxDatum → Rat} {L : List BoxDatum} (hc : ∀ x ∈ L, 0 < cx x ∧ 0 < cy x)
    (hu : ∀ x ∈ L, ∀ p g, EPSILON ≤ unionArea (x.gb g) (x.pb p) ∧ EPSILON ≤ unionArea (x.gb g) (x.pb p) * (cx x * cy x)) :
    boxHistory (L.map (fun x => x.map (Box.scaled (cx x) (cy x)))) = boxHistory L :=
  boxHistory_map (fun x hx p g => C93_scaled_partial (hc x hx).1 (hc x hx).2 (hu x hx p g).1 (hu x hx p g).2)

/-- **C93 fails in double precision**: with coordinates in tenths the computed IoU is below the threshold 0.5, with the same boxes in units ten
times smaller it is 0.5. -/
theorem C93_units_violation : let a : Box := ⟨0, 3, 0, 1⟩; let b : Box := ⟨1, 4, 0, 1⟩
    (Verif.Float.written = (a.scaled (1 / 10) 1, b.scaled (1 / 10) 1)) ∧
    Verif.Float.flBbox Verif.Float.stored.1 Verif.Float.stored.2 < Verif.Shared.fl (1 / 2) ∧ Verif.Float.flBbox a b = Verif.Shared.fl (1 / 2) := by
  decide +kernel

/-! ## The hypotheses can be met -/

/-- A unit square and a square moved by one half. -/
def squares : BoxDatum := ⟨⟨"d", [], [], ""⟩, fun _ => ⟨0, 1, 0, 1⟩, fun _ => ⟨1 / 2, 3 / 2, 0, 1⟩⟩

example : (∀ x ∈ [squares], (0 : Rat) < 640 ∧ (0 : Rat) < 480) ∧ (∀ x ∈ [squares], ∀ p g, EPSILON ≤ unionArea (x.gb g) (x.pb p) ∧
    EPSILON ≤ unionArea (x.gb g) (x.pb p) * (640 * 480)) ∧ bboxIou (squares.gb 0) (squares.pb 0) = 1 / 3 := by
  have h : EPSILON ≤ unionArea ⟨0, 1, 0, 1⟩ ⟨1 / 2, 3 / 2, 0, 1⟩ ∧ EPSILON ≤ unionArea ⟨0, 1, 0, 1⟩ ⟨1 / 2, 3 / 2, 0, 1⟩ * (640 * 480) := by decide +kernel
  refine ⟨fun _ _ => by norm_num, fun x hx p g => ?_, by decide +kernel⟩
  rw [List.mem_singleton] at hx
  subst hx
  exact h

example : bboxIou (Box.moved 5 7 ⟨0, 2, 0, 2⟩) (Box.moved 5 7 ⟨1, 3, 0, 2⟩) = 1 / 3 ∧ bboxIou (Box.mirrored ⟨0, 2, 0, 2⟩) (Box.mirrored ⟨1, 3, 0, 2⟩) = 1 / 3 ∧
    bboxIou (Box.transposed ⟨0, 2, 0, 2⟩) (Box.transposed ⟨1, 3, 0, 2⟩) = 1 / 3 := by decide +kernel

example : (([true, true, false, false].zip [false, true, true, false]).filter (fun x => x.1 || x.2)).Perm
    (([false, true, true].zip [true, true, false]).filter (fun x => x.1 || x.2)) ∧ bitmaskIou [true, true, false, false] [false, true, true, false] = 1 / 3 := by
  decide +kernel

example : bitmaskIou (raster 4 2 0 2 0 2) (raster 4 2 1 3 0 2) = 1 / 3 ∧ bitmaskIou (enlarged 2 [true, true, false]) (enlarged 2 [false, true, true]) = 1 / 3 := by
  decide +kernel

end Verif.Detection
