import Verif.Float.Metrics
import Verif.Detection.ApProps
import Verif.Detection.IouProps
import Verif.Segmentation.MetricsProps

/-!
# C72: ranges survive rounding

Every metric except ROCAUC (`RocProps.lean`) stays in the unit interval in double precision, and the extreme values are exact: a
ratio of counts is reported as 1 only if it is 1.
-/

namespace Verif.Float

open Verif.Shared

/-! ## Ratios of counts -/

theorem fl_nat {n : Nat} (h : n ≤ 2 ^ 53) : fl (n : Rat) = n := fl_double (double_nat h)

theorem div_unit {a b : Rat} (ha : 0 ≤ a) (h : a ≤ b) : 0 ≤ a / b ∧ a / b ≤ 1 := by
  have hb := le_trans ha h
  exact ⟨div_nonneg ha hb, div_le_one_of_le₀ h hb⟩

theorem flDiv_unit {a b : Nat} (h : a ≤ b) : 0 ≤ flDiv a b ∧ flDiv a b ≤ 1 := by
  have h1 : fl (a : Rat) ≤ fl (b : Rat) := fl_mono (by exact_mod_cast h)
  have h0 : 0 ≤ fl (a : Rat) := fl_nonneg (Nat.cast_nonneg a)
  obtain ⟨u, v⟩ := div_unit h0 h1
  exact fl_unit u v

theorem flDiv_eq {a b : Nat} (ha : a ≤ 2 ^ 53) (hb : b ≤ 2 ^ 53) : flDiv a b = fl ((a : Rat) / b) := by
  unfold flDiv; rw [fl_nat ha, fl_nat hb]

/-- **C72 (ratios).** A ratio of counts with the numerator at most the denominator is in the unit interval, whatever the size of the
counts. -/
theorem C72_ratio_range {a b : Nat} (h : a ≤ b) : 0 ≤ flRatio a b ∧ flRatio a b ≤ 1 := by
  unfold flRatio
  split
  · exact flDiv_unit h
  · exact ⟨le_refl _, zero_le_one⟩

/-- The largest double below one. -/
theorem double_pred_one : IsDouble (1 - 1 / 2 ^ 53) :=
  ⟨2 ^ 53 - 1, -53, by decide, by decide, by rw [zpow_neg]; norm_num⟩

theorem double_ulp : IsDouble (1 / 2 ^ 53) := ⟨1, -53, by decide, by decide, by rw [zpow_neg]; norm_num⟩

/-- **C72 (extreme ratios).** For counts up to `2 ^ 53` the ratio is the exact quotient rounded once; it is reported as 1 only if
numerator and denominator agree, and as 0 only if the numerator is 0. -/
theorem C72_ratio_exact {a b : Nat} (h : a ≤ b) (hb : b ≤ 2 ^ 53) (h0 : 0 < b) :
    flRatio a b = fl ((a : Rat) / b) ∧ (flRatio a b = 1 ↔ a = b) ∧ (flRatio a b = 0 ↔ a = 0) := by
  have he : flRatio a b = fl ((a : Rat) / b) := by
    unfold flRatio; rw [if_pos h0, flDiv_eq (by omega) hb]
  have hb' : (0 : Rat) < b := by exact_mod_cast h0
  have hb2 : (b : Rat) ≤ 2 ^ 53 := by exact_mod_cast hb
  refine ⟨he, ⟨?_, ?_⟩, ⟨?_, ?_⟩⟩
  · intro h1
    by_contra hne
    have hlt : a + 1 ≤ b := by omega
    have : (a : Rat) / b ≤ 1 - 1 / 2 ^ 53 := by
      rw [div_le_iff₀ hb']
      have c : (a : Rat) + 1 ≤ b := by exact_mod_cast hlt
      have d : 1 / 2 ^ 53 * (b : Rat) ≤ 1 := by
        rw [div_mul_eq_mul_div, one_mul, div_le_one (by positivity)]; exact hb2
      linarith
    have := fl_le double_pred_one this
    rw [← he, h1] at this
    have p : (0 : Rat) < 1 / 2 ^ 53 := by positivity
    linarith
  · rintro rfl
    rw [he, div_self (ne_of_gt hb'), fl_double double_one]
  · intro h1
    by_contra hne
    have : (1 : Rat) / 2 ^ 53 ≤ (a : Rat) / b := by
      rw [div_le_div_iff₀ (by positivity) hb']
      have c : (1 : Rat) ≤ a := by exact_mod_cast Nat.pos_of_ne_zero hne
      have : (1 : Rat) * 2 ^ 53 ≤ a * 2 ^ 53 := mul_le_mul_of_nonneg_right c (by positivity)
      linarith
    have := le_fl double_ulp this
    rw [← he, h1] at this
    have p : (0 : Rat) < 1 / 2 ^ 53 := by positivity
    linarith
  · rintro rfl
    rw [he]; simp [fl_zero]

example : (29 : Nat) ≤ 100 ∧ (100 : Nat) ≤ 2 ^ 53 := by decide

/-! ## F1 -/

/-- The unit interval of doubles. -/
def Unit01 (x : Rat) : Prop := IsDouble x ∧ 0 ≤ x ∧ x ≤ 1

theorem unit_flRatio {a b : Nat} (h : a ≤ b) : Unit01 (flRatio a b) := by
  refine ⟨?_, C72_ratio_range h⟩
  unfold flRatio
  split
  · exact double_fl _
  · exact double_zero

/-- Twice the rounded product is at most the rounded sum. -/
theorem two_prod_le {p r : Rat} (hp : Unit01 p) (hr : Unit01 r) : fl (2 * fl (p * r)) ≤ fl (p + r) := by
  obtain ⟨dp, p0, p1⟩ := hp
  obtain ⟨dr, r0, r1⟩ := hr
  apply fl_mono
  have a : fl (p * r) ≤ p := fl_le dp (by nlinarith)
  have b : fl (p * r) ≤ r := fl_le dr (by nlinarith)
  linarith

theorem two_prod_le' {p r : Rat} (hp : Unit01 p) (hr : Unit01 r) : fl (fl (2 * p) * r) ≤ fl (p + r) := by
  obtain ⟨dp, p0, p1⟩ := hp
  obtain ⟨dr, r0, r1⟩ := hr
  rw [fl_double (double_two_mul dp)]
  apply fl_mono
  nlinarith

/-- **C72 (F1).** For every precision and recall in the unit interval the three ways in which the code computes F1 stay in the unit
interval; F1 of a perfect precision and recall is exactly 1. -/
theorem C72_f1 {p r : Rat} (hp : Unit01 p) (hr : Unit01 r) :
    (0 ≤ clsF1 p r ∧ clsF1 p r ≤ 1) ∧ (0 ≤ detF1 p r ∧ detF1 p r ≤ 1) ∧ (0 ≤ segF1 p r ∧ segF1 p r ≤ 1) := by
  have a := two_prod_le hp hr
  have b := two_prod_le' hp hr
  have a0 : 0 ≤ fl (2 * fl (p * r)) := fl_nonneg (mul_nonneg (by norm_num) (fl_nonneg (mul_nonneg hp.2.1 hr.2.1)))
  have b0 : 0 ≤ fl (fl (2 * p) * r) := fl_nonneg (mul_nonneg (fl_nonneg (mul_nonneg (by norm_num) hp.2.1)) hr.2.1)
  have z : (0 : Rat) ≤ 0 ∧ (0 : Rat) ≤ 1 := ⟨le_refl _, zero_le_one⟩
  have u := div_unit a0 a
  have v := div_unit b0 b
  unfold clsF1 detF1 segF1
  refine ⟨?_, ?_, ?_⟩
  · split
    · exact fl_unit v.1 v.2
    · exact z
  · split
    · exact fl_unit u.1 u.2
    · exact z
  · split
    · exact fl_unit u.1 u.2
    · exact z

theorem C72_f1_one : clsF1 1 1 = 1 ∧ detF1 1 1 = 1 ∧ segF1 1 1 = 1 := by decide +kernel

example : Unit01 (fl (1 / 3)) := ⟨double_fl _, fl_unit (by norm_num) (by norm_num)⟩

/-- **C72 (classification).** Precision, recall and F1 of every count array stay in the unit interval; for counts up to `2 ^ 53`
precision and recall are the exact values rounded once. -/
theorem C72_classification (c : Classification.Counts) :
    (0 ≤ clsPrecision c ∧ clsPrecision c ≤ 1) ∧ (0 ≤ clsRecall c ∧ clsRecall c ≤ 1) ∧
    (0 ≤ clsF1 (clsPrecision c) (clsRecall c) ∧ clsF1 (clsPrecision c) (clsRecall c) ≤ 1) ∧
    (c.tp + c.fp ≤ 2 ^ 53 → clsPrecision c = fl (Classification.precision c)) ∧
    (c.tp + c.fn ≤ 2 ^ 53 → clsRecall c = fl (Classification.recall c)) := by
  have hp : Unit01 (clsPrecision c) := unit_flRatio (by omega)
  have hr : Unit01 (clsRecall c) := unit_flRatio (by omega)
  refine ⟨hp.2, hr.2, (C72_f1 hp hr).1, ?_, ?_⟩
  · intro h
    unfold clsPrecision flRatio Classification.precision
    split
    · rw [flDiv_eq (by omega) h]
    · rw [fl_zero]
  · intro h
    unfold clsRecall flRatio Classification.recall
    split
    · rw [flDiv_eq (by omega) h]
    · rw [fl_zero]

/-- **C72 (accuracy).** -/
theorem C72_accuracy (row : List Classification.Counts) (n : Nat) (h : (row.map Classification.Counts.tp).sum ≤ n) :
    (0 ≤ clsAccuracy row n ∧ clsAccuracy row n ≤ 1) ∧
    (n ≤ 2 ^ 53 → clsAccuracy row n = fl (Classification.accuracy row n)) := by
  unfold clsAccuracy Classification.accuracy
  split
  · exact ⟨⟨le_refl _, zero_le_one⟩, fun _ => fl_zero.symm⟩
  · refine ⟨flDiv_unit h, fun hn => ?_⟩
    rw [flDiv_eq (by omega) hn]

example : (([⟨3, 1, 2, 0⟩, ⟨4, 0, 0, 1⟩] : List Classification.Counts).map Classification.Counts.tp).sum ≤ 10 := by decide

/-- **C72 (detection).** Precision, recall (never more true positives than ground truths, C28) and F1. -/
theorem C72_detection (tp fp : Nat) {n : Nat} (h : tp ≤ n) :
    (0 ≤ detPrecision tp fp ∧ detPrecision tp fp ≤ 1) ∧ (0 ≤ detRecall tp n ∧ detRecall tp n ≤ 1) ∧
    (0 ≤ detF1 (detPrecision tp fp) (detRecall tp n) ∧ detF1 (detPrecision tp fp) (detRecall tp n) ≤ 1) ∧
    (tp + fp ≤ 2 ^ 53 → detPrecision tp fp = fl (Detection.precision tp fp)) ∧
    (n ≤ 2 ^ 53 → detRecall tp n = fl (Detection.recall tp n)) := by
  have hp : Unit01 (detPrecision tp fp) := unit_flRatio (by omega)
  have hr : Unit01 (detRecall tp n) := unit_flRatio h
  refine ⟨hp.2, hr.2, (C72_f1 hp hr).2.1, ?_, ?_⟩
  · intro hs
    unfold detPrecision flRatio Detection.precision
    split
    · rw [flDiv_eq (by omega) hs]
    · rw [fl_zero]
  · intro hs
    unfold detRecall flRatio Detection.recall
    split
    · rw [flDiv_eq (by omega) hs]
    · rw [fl_zero]

example : (3 : Nat) ≤ 5 := by decide

/-! ## Means and average precision -/

/-- **C72 (means).** A mean of values in the unit interval is in the unit interval, in whatever order the values are added; the mean of
ones is exactly 1 and the mean of zeros exactly 0. -/
theorem C72_mean {xs : List Rat} {v : Rat} (h : IsMean xs v) (hx : ∀ x ∈ xs, 0 ≤ x ∧ x ≤ 1) (hne : xs ≠ [])
    (hl : xs.length ≤ 2 ^ 53) :
    (0 ≤ v ∧ v ≤ 1) ∧ ((∀ x ∈ xs, x = 1) → v = 1) ∧ ((∀ x ∈ xs, x = 0) → v = 0) := by
  obtain ⟨s, hs, rfl⟩ := h
  have hpos : (0 : Rat) < xs.length := by exact_mod_cast List.length_pos_iff.2 hne
  obtain ⟨s0, s1⟩ := hs.range hx hl
  rw [fl_nat hl]
  refine ⟨?_, ?_, ?_⟩
  · obtain ⟨u, w⟩ := div_unit s0 s1
    exact fl_unit u w
  · intro h1
    have hsum : xs.sum = xs.length := by
      rw [List.eq_replicate_of_mem h1]; simp
    have := hs.nat (fun x hx => ⟨1, by rw [h1 x hx]; simp⟩) (by rw [hsum]; exact_mod_cast hl)
    rw [this, hsum, div_self (ne_of_gt hpos), fl_double double_one]
  · intro h1
    have hsum : xs.sum = 0 := by
      rw [List.eq_replicate_of_mem h1]; simp
    have := hs.nat (fun x hx => ⟨0, by rw [h1 x hx]; simp⟩) (by rw [hsum]; positivity)
    rw [this, hsum, zero_div, fl_zero]

example : IsMean [fl (1 / 3), fl (1 / 7), 1] (fl (npSum [fl (1 / 3), fl (1 / 7), 1] / fl 3)) := ⟨_, npSum_sums _, by norm_num⟩

/-- The sweep adds the interpolated values from the last bin to the first. -/
theorem flSweep_eq (c : Nat → Rat) : ∀ (k : Nat) (m acc : Rat),
    flSweep c k m acc = seqSum acc (Detection.sweep c k m).1.reverse := by
  intro k
  induction k with
  | zero => intro m acc; rfl
  | succ k ih =>
    intro m acc
    simp only [flSweep, Detection.sweep]
    rw [ih, List.reverse_append]
    rfl

theorem sweep_mem (c : Nat → Rat) (k : Nat) (m : Rat) {x : Rat} (hx : x ∈ (Detection.sweep c k m).1) :
    x = m ∨ ∃ b, b < k ∧ x = c b := by
  obtain ⟨i, hi, rfl⟩ := List.mem_iff_getElem.1 hx
  rcases ((Detection.sweep_spec c k m).2.2 i hi).2 with h | ⟨b, _, h1, h2⟩
  · exact Or.inl h
  · exact Or.inr ⟨b, h1, h2⟩

theorem ap_sums (c : Nat → Rat) : Sums (Detection.sweep c 101 0).1 (flSweep c 101 0 0) := by
  rw [flSweep_eq]
  have := seqSum_sums (ys := (Detection.sweep c 101 0).1.reverse) Sums.nil
  rw [List.nil_append] at this
  exact Sums.perm (List.reverse_perm _) this

theorem sweep_unit {c : Nat → Rat} (h : ∀ j, j < 101 → 0 ≤ c j ∧ c j ≤ 1) :
    ∀ x ∈ (Detection.sweep c 101 0).1, 0 ≤ x ∧ x ≤ 1 := by
  intro x hx
  rcases sweep_mem c 101 0 hx with rfl | ⟨b, hb, rfl⟩
  · exact ⟨le_refl _, zero_le_one⟩
  · exact h b hb

/-- **C72 (average precision).** For every curve with values in the unit interval the average precision is in the unit interval; it is
exactly 1 if the last bin has precision 1, and exactly 0 if all bins are 0. -/
theorem C72_ap {c : Nat → Rat} (h : ∀ j, j < 101 → 0 ≤ c j ∧ c j ≤ 1) :
    (0 ≤ flAp c ∧ flAp c ≤ 1) ∧ (c 100 = 1 → flAp c = 1) ∧ ((∀ j, j < 101 → c j = 0) → flAp c = 0) := by
  have hl := (Detection.sweep_spec c 101 0).1
  have hu := sweep_unit h
  have hs := ap_sums c
  obtain ⟨s0, s1⟩ := hs.range hu (by rw [hl]; norm_num)
  rw [hl] at s1
  refine ⟨?_, ?_, ?_⟩
  · have e : flAp c = fl (flSweep c 101 0 0 / 101) := rfl
    rw [e]
    obtain ⟨u, w⟩ := div_unit s0 (b := 101) (by exact_mod_cast s1)
    exact fl_unit u w
  · intro h1
    have hall : ∀ x ∈ (Detection.sweep c 101 0).1, x = 1 := by
      intro x hx
      have hx1 := (hu x hx).2
      obtain ⟨i, hi, rfl⟩ := List.mem_iff_getElem.1 hx
      have := (((Detection.sweep_spec c 101 0).2.2 i hi).1).2 100 (by rw [hl] at hi; omega) (by norm_num)
      rw [h1] at this
      linarith
    have hsum : (Detection.sweep c 101 0).1.sum = 101 := by
      rw [List.eq_replicate_of_mem hall, hl]; norm_num
    have := hs.nat (fun x hx => ⟨1, by rw [hall x hx]; simp⟩) (by rw [hsum]; norm_num)
    unfold flAp
    rw [this, hsum, div_self (by norm_num), fl_double double_one]
  · intro h1
    have hall : ∀ x ∈ (Detection.sweep c 101 0).1, x = 0 := by
      intro x hx
      rcases sweep_mem c 101 0 hx with rfl | ⟨b, hb, rfl⟩
      · rfl
      · exact h1 b hb
    have hsum : (Detection.sweep c 101 0).1.sum = 0 := by
      rw [List.eq_replicate_of_mem hall]; simp
    have := hs.nat (fun x hx => ⟨0, by rw [hall x hx]; simp⟩) (by rw [hsum]; norm_num)
    unfold flAp
    rw [this, hsum, zero_div, fl_zero]

example : ∀ j, j < 101 → 0 ≤ (fun j => if j < 50 then (1 : Rat) / 2 else 0) j ∧ (fun j => if j < 50 then (1 : Rat) / 2 else 0) j ≤ 1 := by
  intro j _
  dsimp only
  split <;> norm_num

theorem fl_error_unit {z : Rat} (h0 : 0 ≤ z) (h1 : z ≤ 1) : |fl z - z| ≤ 1 / 2 ^ 54 := by
  rcases eq_or_lt_of_le h0 with h0 | h0
  · rw [← h0, fl_zero]; simp
  · rcases eq_or_lt_of_le h1 with h1 | h1
    · rw [h1, fl_double double_one]; simp
    · refine le_trans (fl_error z) ?_
      have hl := log_lt (e := 0) h0 (by simpa using h1)
      have : (2 : Rat) ^ lastBit z ≤ 2 ^ (-53 : Int) :=
        zpow_le_zpow_right₀ (by norm_num) (by unfold lastBit; rw [abs_of_pos h0]; omega)
      have e : (2 : Rat) ^ (-53 : Int) = 1 / 2 ^ 53 := by rw [zpow_neg]; norm_num
      rw [e] at this
      have e2 : (1 : Rat) / 2 ^ 54 = 1 / 2 ^ 53 / 2 := by norm_num
      rw [e2]
      linarith

/-- Rounding the curve first or the interpolated values: the running maximum commutes with the rounding. -/
theorem sweep_fl (c : Nat → Rat) : ∀ (k : Nat) (m : Rat),
    (Detection.sweep (fun j => fl (c j)) k (fl m)).1 = (Detection.sweep c k m).1.map fl := by
  intro k
  induction k with
  | zero => intro m; rfl
  | succ k ih =>
    intro m
    have hm : max (fl (c k)) (fl m) = fl (max (c k) m) := by
      rcases le_total (c k) m with h | h
      · rw [max_eq_right h, max_eq_right (fl_mono h)]
      · rw [max_eq_left h, max_eq_left (fl_mono h)]
    simp only [Detection.sweep]
    rw [hm, ih, List.map_append]
    rfl

theorem map_sum_error {l : List Rat} {f : Rat → Rat} {e : Rat} (h : ∀ x ∈ l, |f x - x| ≤ e) :
    |(l.map f).sum - l.sum| ≤ l.length * e := by
  induction l with
  | nil => simp
  | cons x l ih =>
    have a := h x (by simp)
    have b := ih (fun y hy => h y (List.mem_cons_of_mem _ hy))
    rw [abs_le] at a b ⊢
    simp only [List.map_cons, List.sum_cons, List.length_cons]
    push_cast
    constructor <;> linarith [a.1, a.2, b.1, b.2]

/-- **C72 (error of average precision).** The average precision of the curve of rounded precisions differs from the exact average
precision of the exact curve by less than `2 ^ -44`. -/
theorem C72_ap_error {c : Nat → Rat} (h : ∀ j, j < 101 → 0 ≤ c j ∧ c j ≤ 1) :
    |flAp (fun j => fl (c j)) - Detection.averagePrecision c| ≤ 1 / 2 ^ 44 := by
  have hl := (Detection.sweep_spec c 101 0).1
  have hu := sweep_unit h
  have hfc : ∀ j, j < 101 → 0 ≤ (fun j => fl (c j)) j ∧ (fun j => fl (c j)) j ≤ 1 :=
    fun j hj => fl_unit (h j hj).1 (h j hj).2
  have hs := ap_sums (fun j => fl (c j))
  have hz : (Detection.sweep (fun j => fl (c j)) 101 0).1 = (Detection.sweep c 101 0).1.map fl := by
    have := sweep_fl c 101 0
    rwa [fl_zero] at this
  have hs' := hs
  rw [hz] at hs
  have herr := hs.error (by
    intro x hx
    obtain ⟨y, hy, rfl⟩ := List.mem_map.1 hx
    exact ⟨double_fl y, fl_nonneg (hu y hy).1⟩)
  have hrange := hs'.range (sweep_unit hfc) (by rw [hz, List.length_map, hl]; norm_num)
  rw [hz, List.length_map, hl] at hrange
  have hmap := map_sum_error (l := (Detection.sweep c 101 0).1) (f := fl) (e := 1 / 2 ^ 54)
    (fun x hx => fl_error_unit (hu x hx).1 (hu x hx).2)
  rw [hl] at hmap
  rw [List.length_map, hl] at herr
  unfold Detection.averagePrecision flAp
  rw [(Detection.sweep_spec c 101 0).2.1]
  have hS : ((Detection.sweep c 101 0).1.map fl).sum ≤ 101 ∧ 0 ≤ ((Detection.sweep c 101 0).1.map fl).sum := by
    constructor
    · have : ((Detection.sweep c 101 0).1.map fl).sum ≤ ((Detection.sweep c 101 0).1.map fl).length • (1 : Rat) := by
        apply List.sum_le_card_nsmul
        intro x hx
        obtain ⟨y, hy, rfl⟩ := List.mem_map.1 hx
        exact (fl_unit (hu y hy).1 (hu y hy).2).2
      rw [List.length_map, hl] at this
      simpa using this
    · apply List.sum_nonneg
      intro x hx
      obtain ⟨y, hy, rfl⟩ := List.mem_map.1 hx
      exact fl_nonneg (hu y hy).1
  generalize ((Detection.sweep c 101 0).1.map fl).sum = S at *
  generalize (Detection.sweep c 101 0).1.sum = T at *
  generalize flSweep (fun j => fl (c j)) 101 0 0 = F at *
  have hF := fl_error_unit (z := F / 101) (div_nonneg hrange.1 (by norm_num)) (by
    rw [div_le_one (by norm_num)]; exact_mod_cast hrange.2)
  have up : (1 + 1 / 2 ^ 53 : Rat) ^ 100 ≤ 1 + 1 / 2 ^ 46 := by norm_num
  have lo : 1 - 1 / 2 ^ 46 ≤ (1 - 1 / 2 ^ 53 : Rat) ^ 100 := by norm_num
  have a1 : F ≤ (1 + 1 / 2 ^ 46) * S := le_trans herr.2 (mul_le_mul_of_nonneg_right up hS.2)
  have a2 : (1 - 1 / 2 ^ 46) * S ≤ F := le_trans (mul_le_mul_of_nonneg_right lo hS.2) herr.1
  rw [abs_le] at hF hmap ⊢
  have g : F / 101 - T / 101 = (F - T) / 101 := by ring
  have b1 : F - T ≤ 101 * (1 / 2 ^ 45) := by
    have := hS.1
    norm_num at *
    linarith [hmap.2]
  have b2 : -(101 * (1 / 2 ^ 45)) ≤ F - T := by
    have := hS.1
    norm_num at *
    linarith [hmap.1]
  have c1 : (F - T) / 101 ≤ 1 / 2 ^ 45 := by rw [div_le_iff₀ (by norm_num)]; linarith
  have c2 : -(1 / 2 ^ 45) ≤ (F - T) / 101 := by rw [le_div_iff₀ (by norm_num)]; linarith
  have e3 : (1 : Rat) / 2 ^ 44 = 1 / 2 ^ 45 + 1 / 2 ^ 45 := by norm_num
  have e4 : (1 : Rat) / 2 ^ 54 ≤ 1 / 2 ^ 45 := by norm_num
  rw [e3]
  constructor <;> linarith [hF.1, hF.2]

/-! ## Intersection over union -/

/-- **C72 (boxes).** The IoU of any two boxes, proper or not, is in the unit interval and does not depend on their order. The IoU of a
proper box with itself is exactly 1 unless its area vanishes; boxes apart on one axis have IoU 0. -/
theorem C72_bbox (a b : Detection.Box) :
    (0 ≤ flBbox a b ∧ flBbox a b ≤ 1) ∧ flBbox a b = flBbox b a ∧
    (a.xmin ≤ a.xmax → a.ymin ≤ a.ymax → fl Detection.EPSILON ≤ fl (fl (a.xmax - a.xmin) * fl (a.ymax - a.ymin)) → flBbox a a = 1) ∧
    (a.xmax ≤ b.xmin ∨ a.ymax ≤ b.ymin → flBbox a b = 0) := by
  refine ⟨?_, ?_, ?_, ?_⟩
  · unfold flBbox
    dsimp only
    split
    swap
    · exact ⟨le_refl _, zero_le_one⟩
    rename_i hU
    have heps : 0 ≤ fl Detection.EPSILON := fl_nonneg (by unfold Detection.EPSILON; norm_num)
    have w0 : 0 ≤ max 0 (fl (min a.xmax b.xmax - max a.xmin b.xmin)) := le_max_left _ _
    have h0 : 0 ≤ max 0 (fl (min a.ymax b.ymax - max a.ymin b.ymin)) := le_max_left _ _
    -- a side of the intersection is at most the side of either box, or zero
    have side : ∀ (l1 u1 l2 u2 : Rat), max 0 (fl (min u1 u2 - max l1 l2)) = 0 ∨
        (max 0 (fl (min u1 u2 - max l1 l2)) ≤ fl (u1 - l1) ∧ max 0 (fl (min u1 u2 - max l1 l2)) ≤ fl (u2 - l2)) := by
      intro l1 u1 l2 u2
      have m1 := min_le_left u1 u2
      have m2 := min_le_right u1 u2
      have n1 := le_max_left l1 l2
      have n2 := le_max_right l1 l2
      rcases le_total (fl (min u1 u2 - max l1 l2)) 0 with h | h
      · exact Or.inl (max_eq_left h)
      · right
        rw [max_eq_right h]
        exact ⟨fl_mono (by linarith), fl_mono (by linarith)⟩
    have hx := side a.xmin a.xmax b.xmin b.xmax
    have hy := side a.ymin a.ymax b.ymin b.ymax
    generalize max 0 (fl (min a.xmax b.xmax - max a.xmin b.xmin)) = w at *
    generalize max 0 (fl (min a.ymax b.ymax - max a.ymin b.ymin)) = hh at *
    by_cases hz : w = 0 ∨ hh = 0
    · have : w * hh = 0 := by rcases hz with h | h <;> rw [h] <;> simp
      rw [this, fl_zero, zero_div, fl_zero]
      exact ⟨le_refl _, zero_le_one⟩
    · rw [not_or] at hz
      obtain ⟨x1, x2⟩ := hx.resolve_left hz.1
      obtain ⟨y1, y2⟩ := hy.resolve_left hz.2
      have i1 : fl (w * hh) ≤ fl (fl (a.xmax - a.xmin) * fl (a.ymax - a.ymin)) :=
        fl_mono (mul_le_mul x1 y1 h0 (le_trans w0 x1))
      have i2 : fl (w * hh) ≤ fl (fl (b.xmax - b.xmin) * fl (b.ymax - b.ymin)) :=
        fl_mono (mul_le_mul x2 y2 h0 (le_trans w0 x2))
      have i0 : 0 ≤ fl (w * hh) := fl_nonneg (mul_nonneg w0 h0)
      have di := double_fl (w * hh)
      generalize fl (w * hh) = i at *
      generalize fl (fl (a.xmax - a.xmin) * fl (a.ymax - a.ymin)) = s1 at *
      generalize fl (fl (b.xmax - b.xmin) * fl (b.ymax - b.ymin)) = s2 at *
      have j1 : 2 * i ≤ fl (s1 + s2) := le_fl (double_two_mul di) (by linarith)
      have j2 : i ≤ fl (fl (s1 + s2) - i) := le_fl di (by linarith)
      obtain ⟨u, v⟩ := div_unit i0 j2
      exact fl_unit u v
  · unfold flBbox
    dsimp only
    rw [max_comm b.xmin, max_comm b.ymin, min_comm b.xmax, min_comm b.ymax,
      add_comm (fl (fl (b.xmax - b.xmin) * fl (b.ymax - b.ymin)))]
  · intro hx hy hE
    unfold flBbox
    dsimp only
    rw [min_self, min_self, max_self, max_self, max_eq_right (fl_nonneg (by linarith)), max_eq_right (fl_nonneg (by linarith))]
    have da := double_fl (fl (a.xmax - a.xmin) * fl (a.ymax - a.ymin))
    generalize fl (fl (a.xmax - a.xmin) * fl (a.ymax - a.ymin)) = s at *
    have e : fl (fl (s + s) - s) = s := by
      have : s + s = 2 * s := by ring
      rw [this, fl_double (double_two_mul da)]
      have : 2 * s - s = s := by ring
      rw [this, fl_double da]
    rw [e, if_pos hE]
    have hpos : 0 < s := by
      have : 0 < fl Detection.EPSILON := by unfold Detection.EPSILON; decide +kernel
      linarith
    rw [div_self (ne_of_gt hpos), fl_double double_one]
  · intro h
    unfold flBbox
    dsimp only
    have zero : ∀ (l1 u1 l2 u2 : Rat), u1 ≤ l2 → max 0 (fl (min u1 u2 - max l1 l2)) = 0 := by
      intro l1 u1 l2 u2 h
      apply max_eq_left
      have m1 := min_le_left u1 u2
      have n2 := le_max_right l1 l2
      exact fl_le double_zero (by linarith)
    have : max 0 (fl (min a.xmax b.xmax - max a.xmin b.xmin)) * max 0 (fl (min a.ymax b.ymax - max a.ymin b.ymin)) = 0 := by
      rcases h with h | h
      · rw [zero _ _ _ _ h, zero_mul]
      · rw [zero a.ymin _ _ _ h, mul_zero]
    rw [this, fl_zero, zero_div, fl_zero]
    split <;> rfl

example : fl Detection.EPSILON ≤ fl (fl ((3 : Rat) - 1 / 3) * fl (2 - 1 / 7)) ∧ flBbox ⟨1/3, 3, 1/7, 2⟩ ⟨1/3, 3, 1/7, 2⟩ = 1 ∧
    flBbox ⟨0, 3, 0, 1⟩ ⟨1, 4, 0, 1⟩ = 1 / 2 := by decide +kernel

theorem popcount_and_le (a b : List Bool) : Detection.popcount (List.zipWith (· && ·) a b) ≤ Detection.popcount a ∧
    Detection.popcount (List.zipWith (· && ·) a b) ≤ Detection.popcount b := by
  unfold Detection.popcount
  induction a generalizing b with
  | nil => simp
  | cons x a ih =>
    cases b with
    | nil => simp
    | cons y b =>
      obtain ⟨h1, h2⟩ := ih b
      rw [List.zipWith_cons_cons, List.countP_cons, List.countP_cons, List.countP_cons]
      cases x <;> cases y <;> simp <;> omega

/-- **C72 (masks).** The IoU of two masks is in the unit interval; for masks of fewer than `2 ^ 52` pixels it is the exact value rounded
once. -/
theorem C72_bitmask (a b : List Bool) :
    (0 ≤ flBitmask a b ∧ flBitmask a b ≤ 1) ∧
    (a.length ≤ 2 ^ 52 → b.length ≤ 2 ^ 52 → flBitmask a b = fl (Detection.bitmaskIou a b)) := by
  obtain ⟨h1, h2⟩ := popcount_and_le a b
  have ha : Detection.popcount a ≤ a.length := List.countP_le_length
  have hb : Detection.popcount b ≤ b.length := List.countP_le_length
  unfold flBitmask Detection.bitmaskIou
  dsimp only
  generalize Detection.popcount (List.zipWith (· && ·) a b) = i at *
  generalize Detection.popcount a = x at *
  generalize Detection.popcount b = y at *
  refine ⟨C72_ratio_range (by omega), ?_⟩
  intro la lb
  have e : (x : Rat) + y - i = ((x + y - i : Nat) : Rat) := by
    rw [Nat.cast_sub (by omega)]; push_cast; rfl
  rw [e]
  unfold flRatio
  by_cases hz : x + y - i = 0
  · rw [hz, if_neg (by omega), if_neg (by unfold Detection.EPSILON; norm_num), fl_zero]
  · have : (1 : Rat) ≤ ((x + y - i : Nat) : Rat) := by exact_mod_cast Nat.pos_of_ne_zero hz
    rw [if_pos (by omega), if_pos (by unfold Detection.EPSILON; linarith), flDiv_eq (by omega) (by omega)]

example : ([true, false] : List Bool).length ≤ 2 ^ 52 := by decide

/-! ## Segmentation -/

theorem flRatio_anti {t a b : Nat} (ha : t ≤ a) (h : a ≤ b) : flRatio t b ≤ flRatio t a := by
  unfold flRatio
  by_cases h0 : a = 0
  · have : t = 0 := by omega
    subst this
    rw [if_neg (show ¬ a > 0 by omega)]
    split
    · unfold flDiv; simp [fl_zero]
    · exact le_refl _
  · rw [if_pos (by omega), if_pos (by omega)]
    apply fl_mono
    have a1 : (1 : Rat) ≤ fl (a : Rat) := le_fl double_one (by exact_mod_cast Nat.pos_of_ne_zero h0)
    apply div_le_div_of_nonneg_left (fl_nonneg (Nat.cast_nonneg _)) (by linarith)
    exact fl_mono (by exact_mod_cast h)

/-- **C72 (segmentation).** With fewer than `2 ^ 64` pixels all metrics of the segmentation evaluator stay in the unit interval, and the
IoU of a label is at most its precision and its recall. -/
theorem C72_segmentation {n : Nat} {m : Nat → Nat → Nat} (h : Segmentation.allPixels n m < 2 ^ 64) :
    (∀ i < n, (0 ≤ segPrecision n m i ∧ segPrecision n m i ≤ 1) ∧ (0 ≤ segRecall n m i ∧ segRecall n m i ≤ 1) ∧
      (0 ≤ segUnmatchedPd n m i ∧ segUnmatchedPd n m i ≤ 1) ∧ (0 ≤ segUnmatchedGt n m i ∧ segUnmatchedGt n m i ≤ 1) ∧
      (0 ≤ segF1 (segPrecision n m i) (segRecall n m i) ∧ segF1 (segPrecision n m i) (segRecall n m i) ≤ 1) ∧
      segIou n m i i ≤ segPrecision n m i ∧ segIou n m i i ≤ segRecall n m i) ∧
    (∀ i < n, ∀ j < n, 0 ≤ segIou n m i j ∧ segIou n m i j ≤ 1) ∧
    0 ≤ segAccuracy n m ∧ segAccuracy n m ≤ 1 := by
  have hg : ∀ i < n, Segmentation.gtCounts n m i = Segmentation.gtPixels n m i := by
    intro i hi
    exact Segmentation.u64_small (x := Segmentation.gtPixels n m i) (lt_of_le_of_lt (Segmentation.gtPixels_le m hi) h)
  have hp : ∀ i < n, Segmentation.pdCounts n m i = Segmentation.pdPixels n m i := by
    intro i hi
    exact Segmentation.u64_small (x := Segmentation.pdPixels n m i) (lt_of_le_of_lt (Segmentation.pdPixels_le m hi) h)
  have hN : Segmentation.nPixels n m = Segmentation.allPixels n m := Segmentation.u64_small (x := Segmentation.allPixels n m) h
  have hd : Segmentation.upTo (n + 1) (fun i => m i i) ≤ Segmentation.allPixels n m := by
    apply Segmentation.upTo_le
    intro i hi
    exact Segmentation.le_upTo (fun j => m i j) hi
  have hI : ∀ i < n, ∀ j < n, segIou n m i j
      = flRatio (m (i + 1) (j + 1)) (Segmentation.gtPixels n m i + Segmentation.pdPixels n m j - m (i + 1) (j + 1)) := by
    intro i hi j hj
    unfold segIou
    rw [hg i hi, hp j hj]
    have hle := Segmentation.union_le m hi hj
    have h1 := Segmentation.entry_le_gt (i := i) m (show j + 1 ≤ n by omega)
    have e : (((Segmentation.gtPixels n m i + Segmentation.pdPixels n m j : Nat) : Int) - ((m (i + 1) (j + 1) : Nat) : Int))
        = ((Segmentation.gtPixels n m i + Segmentation.pdPixels n m j - m (i + 1) (j + 1) : Nat) : Int) := by omega
    rw [e, Segmentation.u64_small (lt_of_le_of_lt hle h)]
  refine ⟨?_, ?_, ?_⟩
  · intro i hi
    have g1 := Segmentation.entry_le_gt (i := i) m (show i + 1 ≤ n by omega)
    have p1 := Segmentation.entry_le_pd (j := i) m (show i + 1 ≤ n by omega)
    have g0 := Segmentation.entry_le_gt (i := i) m (show 0 ≤ n by omega)
    have p0 := Segmentation.entry_le_pd (j := i) m (show 0 ≤ n by omega)
    have eI := hI i hi i hi
    unfold segPrecision segRecall segUnmatchedPd segUnmatchedGt
    rw [hg i hi, hp i hi, eI]
    refine ⟨C72_ratio_range p1, C72_ratio_range g1, C72_ratio_range p0, C72_ratio_range g0,
      (C72_f1 (unit_flRatio p1) (unit_flRatio g1)).2.2, flRatio_anti p1 (by omega), flRatio_anti g1 (by omega)⟩
  · intro i hi j hj
    rw [hI i hi j hj]
    have g1 := Segmentation.entry_le_gt (i := i) m (show j + 1 ≤ n by omega)
    have p1 := Segmentation.entry_le_pd (j := j) m (show i + 1 ≤ n by omega)
    exact C72_ratio_range (by omega)
  · unfold segAccuracy
    dsimp only
    rw [hN]
    have hs := Segmentation.upTo_shift n (fun i => m i i)
    have e1 : Segmentation.u64 (((List.range n).map (fun i => m (i + 1) (i + 1))).sum : Nat)
        = Segmentation.upTo n (fun i => m (i + 1) (i + 1)) :=
      Segmentation.u64_small (x := Segmentation.upTo n (fun i => m (i + 1) (i + 1))) (by omega)
    rw [e1, Segmentation.u64_small (by omega), Nat.add_comm, ← hs]
    exact C72_ratio_range hd

example : Segmentation.allPixels 1 (fun i j => i + 2 * j + 1) < 2 ^ 64 := by decide

/-! ## Text generation -/

/-- **C72 (text generation).** The share of verdicts, the F1 of answer correctness and context precision are in the unit interval. -/
theorem C72_text : (∀ yes n : Nat, yes ≤ n → 0 ≤ verdictShare yes n ∧ verdictShare yes n ≤ 1) ∧
    (∀ tp fp fn : Nat, 0 ≤ answerF1 tp fp fn ∧ answerF1 tp fp fn ≤ 1) ∧
    (∀ agg : List Bool, agg.length ≤ 2 ^ 53 → 0 ≤ flContextPrecision agg ∧ flContextPrecision agg ≤ 1) := by
  refine ⟨?_, ?_, ?_⟩
  · intro yes n h
    obtain ⟨u, v⟩ := div_unit (a := (yes : Rat)) (b := n) (Nat.cast_nonneg _) (by exact_mod_cast h)
    exact fl_unit u v
  · intro tp fp fn
    unfold answerF1
    split
    · have t0 : 0 ≤ fl (tp : Rat) := fl_nonneg (Nat.cast_nonneg _)
      have h0 : 0 ≤ fl (1 / 2 * fl ((fp + fn : Nat) : Rat)) :=
        fl_nonneg (mul_nonneg (by norm_num) (fl_nonneg (Nat.cast_nonneg _)))
      have : fl (tp : Rat) ≤ fl (fl (tp : Rat) + fl (1 / 2 * fl ((fp + fn : Nat) : Rat))) := le_fl (double_fl _) (by linarith)
      obtain ⟨u, v⟩ := div_unit t0 this
      exact fl_unit u v
    · exact ⟨le_refl _, zero_le_one⟩
  · intro agg hlen
    unfold flContextPrecision
    dsimp only
    split
    · exact ⟨le_refl _, zero_le_one⟩
    · rename_i hne
      have hl : ((TextGen.precisionAtK agg).map fl).length ≤ 2 ^ 53 := by
        rw [List.length_map]
        refine le_trans ?_ hlen
        unfold TextGen.precisionAtK
        refine le_trans (List.length_filterMap_le _ _) ?_
        rw [List.length_range]
      have hu : ∀ x ∈ (TextGen.precisionAtK agg).map fl, 0 ≤ x ∧ x ≤ 1 := by
        intro x hx
        obtain ⟨y, hy, rfl⟩ := List.mem_map.1 hx
        unfold TextGen.precisionAtK at hy
        obtain ⟨k, _, hk⟩ := List.mem_filterMap.1 hy
        split at hk
        · obtain rfl := Option.some.inj hk
          have hc : (agg.take (k + 1)).count true ≤ k + 1 :=
            le_trans List.count_le_length (by rw [List.length_take]; omega)
          obtain ⟨u, v⟩ := div_unit (a := (((agg.take (k + 1)).count true : Nat) : Rat)) (b := ((k + 1 : Nat) : Rat))
            (Nat.cast_nonneg _) (by exact_mod_cast hc)
          exact fl_unit u v
        · simp at hk
      have hs := seqSum_sums (ys := (TextGen.precisionAtK agg).map fl) Sums.nil
      rw [List.nil_append] at hs
      exact (C72_mean ⟨_, hs, rfl⟩ hu (by intro h; apply hne; rw [h]; rfl) hl).1

example : flContextPrecision [true, false, true] = fl (fl (1 + fl (2 / 3)) / 2) := by decide +kernel

end Verif.Float
