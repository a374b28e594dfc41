import Verif.Float.MetricsProps

/-!
# C73: comparisons in double precision decide like exact arithmetic

The models compare exact scores and IoUs with exact thresholds. The code compares doubles: `ious >= iou_thresholds[...]`,
`scores >= score_thresholds[...]` (`object_detection/computation.py` 412, 423, `classification/computation.py` 140-146). For the inputs
that occur in practice the decisions agree.
-/

namespace Verif.Float

open Verif.Shared

/-- **C73 (decimals).** Literals with up to 15 decimal places in the unit interval are compared, sorted and tested for equality as
doubles exactly as they are as numbers. -/
theorem C73_decimals {a b : Nat} (ha : a ≤ 10 ^ 15) (hb : b ≤ 10 ^ 15) :
    (fl ((a : Rat) / 10 ^ 15) ≤ fl ((b : Rat) / 10 ^ 15) ↔ a ≤ b) ∧
    (fl ((a : Rat) / 10 ^ 15) = fl ((b : Rat) / 10 ^ 15) ↔ a = b) := by
  have key : ∀ {a b : Nat}, a ≤ 10 ^ 15 → b ≤ 10 ^ 15 → (fl ((a : Rat) / 10 ^ 15) ≤ fl ((b : Rat) / 10 ^ 15) ↔ a ≤ b) := by
    intro a b ha hb
    constructor
    · intro h
      by_contra hlt
      have hlt' : (b : Rat) + 1 ≤ a := by exact_mod_cast (show b + 1 ≤ a by omega)
      have ha' : (a : Rat) ≤ 10 ^ 15 := by exact_mod_cast ha
      have := fl_lt (x := (b : Rat) / 10 ^ 15) (y := (a : Rat) / 10 ^ 15) (by positivity)
        (by rw [div_le_one (by positivity)]; exact ha') (by
          rw [lt_div_iff₀ (by positivity), add_mul, div_mul_cancel₀ _ (by positivity)]
          have : (1 : Rat) / 2 ^ 53 * 10 ^ 15 < 1 := by norm_num
          linarith)
      linarith
    · intro h
      apply fl_mono
      apply div_le_div_of_nonneg_right _ (by positivity)
      exact_mod_cast h
  refine ⟨key ha hb, ?_, ?_⟩
  · intro h
    exact le_antisymm ((key ha hb).1 (le_of_eq h)) ((key hb ha).1 (le_of_eq h.symm))
  · rintro rfl; rfl

/-- Sixteen places are too many: these two numbers are the same double. -/
example : fl (9999999999999995 / 10 ^ 16) = fl (9999999999999994 / 10 ^ 16) := by decide +kernel

example : (500000000000000 : Nat) ≤ 10 ^ 15 := by decide

/-- Fractions of the unit interval with small denominators are compared exactly. -/
theorem fl_fraction {i u p q : Nat} (hq : 0 < q) (hu : 0 < u) (hp : p ≤ q) (h : u * q < 2 ^ 53) :
    fl ((p : Rat) / q) ≤ fl ((i : Rat) / u) ↔ (p : Rat) / q ≤ (i : Rat) / u := by
  have q0 : (0 : Rat) < q := by exact_mod_cast hq
  have u0 : (0 : Rat) < u := by exact_mod_cast hu
  constructor
  · intro hle
    by_contra hlt
    have hlt : (i : Rat) / u < p / q := lt_of_not_ge hlt
    rw [div_lt_div_iff₀ u0 q0] at hlt
    have h1 : i * q + 1 ≤ p * u := by exact_mod_cast (show i * q < p * u by exact_mod_cast hlt)
    have h1' : (i : Rat) * q + 1 ≤ p * u := by exact_mod_cast h1
    have hbig : (u : Rat) * q < 2 ^ 53 := by exact_mod_cast h
    have hpq : (p : Rat) ≤ q := by exact_mod_cast hp
    have := fl_lt (x := (i : Rat) / u) (y := (p : Rat) / q) (by positivity) (by rw [div_le_one q0]; exact hpq) (by
      rw [div_add_div _ _ (ne_of_gt u0) (by positivity), div_lt_div_iff₀ (by positivity) q0]
      nlinarith)
    linarith
  · exact fun h => fl_mono h

/-- **C73 (masks).** For masks and a threshold `p / q` (a literal, so rounded) with `q` times the number of pixels of both masks below `2 ^ 52`, the
comparison of doubles has the result of the comparison of exact values. -/
theorem C73_mask (a b : List Bool) {p q : Nat} (hp : p ≤ q) (hq : 0 < q)
    (h : (a.length + b.length + 1) * q < 2 ^ 52) :
    fl ((p : Rat) / q) ≤ flBitmask a b ↔ (p : Rat) / q ≤ Detection.bitmaskIou a b := by
  have hlen : a.length + b.length + 1 < 2 ^ 52 := lt_of_le_of_lt (Nat.le_mul_of_pos_right _ hq) h
  have q0 : (0 : Rat) < q := by exact_mod_cast hq
  obtain ⟨h1, h2⟩ := popcount_and_le a b
  have ha : Detection.popcount a ≤ a.length := List.countP_le_length
  have hb : Detection.popcount b ≤ b.length := List.countP_le_length
  rw [(C72_bitmask a b).2 (by omega) (by omega)]
  unfold Detection.bitmaskIou
  dsimp only
  generalize Detection.popcount (List.zipWith (· && ·) a b) = i at *
  generalize Detection.popcount a = x at *
  generalize Detection.popcount b = y at *
  have e : (x : Rat) + y - i = ((x + y - i : Nat) : Rat) := by
    rw [Nat.cast_sub (by omega)]; push_cast; rfl
  rw [e]
  by_cases hz : x + y - i = 0
  · rw [hz, if_neg (by unfold Detection.EPSILON; norm_num), fl_zero]
    constructor
    · intro hle
      by_contra hn
      have hpos : 0 < (p : Rat) / q := lt_of_not_ge hn
      have : (1 : Rat) / 2 ^ 53 ≤ (p : Rat) / q := by
        have p1 : (1 : Rat) ≤ p := by
          rcases Nat.eq_zero_or_pos p with h0 | h0
          · rw [h0] at hpos; simp at hpos
          · exact_mod_cast h0
        have q1 : (q : Rat) ≤ 2 ^ 53 := by
          have : q < 2 ^ 52 := lt_of_le_of_lt (Nat.le_mul_of_pos_left _ (by omega)) h
          exact_mod_cast (show q ≤ 2 ^ 53 by omega)
        rw [div_le_div_iff₀ (by positivity) q0]
        nlinarith
      have := le_fl double_ulp this
      have p0 : (0 : Rat) < 1 / 2 ^ 53 := by positivity
      linarith
    · intro hle
      exact fl_le double_zero hle
  · have h1 : (1 : Rat) ≤ ((x + y - i : Nat) : Rat) := by exact_mod_cast Nat.pos_of_ne_zero hz
    rw [if_pos (by unfold Detection.EPSILON; linarith)]
    apply fl_fraction hq (Nat.pos_of_ne_zero hz) hp
    refine lt_of_le_of_lt (Nat.mul_le_mul_right q (show x + y - i ≤ a.length + b.length + 1 by omega)) (by omega)

example : (([true, true] : List Bool).length + ([true, false] : List Bool).length + 1) * 100 < 2 ^ 52 := by decide

/-- A box with integer coordinates up to `2 ^ 20`. -/
def GridBox (a : Detection.Box) (x1 x2 y1 y2 : Nat) : Prop :=
  a = ⟨x1, x2, y1, y2⟩ ∧ x1 ≤ x2 ∧ y1 ≤ y2 ∧ x2 ≤ 2 ^ 20 ∧ y2 ≤ 2 ^ 20

/-- **C73 (boxes).** For boxes with integer coordinates up to `2 ^ 20` the IoU in double precision is the exact IoU, rounded once, and
the comparison with a threshold `p / q`, `q ≤ 2 ^ 11`, has the result of the comparison of exact values. -/
theorem C73_box {a b : Detection.Box} {x1 x2 y1 y2 u1 u2 v1 v2 : Nat} (ha : GridBox a x1 x2 y1 y2) (hb : GridBox b u1 u2 v1 v2)
    {p q : Nat} (hp : p ≤ q) (hq : 0 < q) (hq2 : q ≤ 2 ^ 11) :
    flBbox a b = fl (Detection.bboxIou a b) ∧ (fl ((p : Rat) / q) ≤ flBbox a b ↔ (p : Rat) / q ≤ Detection.bboxIou a b) := by
  obtain ⟨rfl, hx, hy, hX, hY⟩ := ha
  obtain ⟨rfl, hu, hv, hU, hV⟩ := hb
  -- the sides of the boxes and of the intersection are small integers
  have sub : ∀ {l h : Nat}, l ≤ h → h ≤ 2 ^ 20 → fl ((h : Rat) - l) = ((h - l : Nat) : Rat) := by
    intro l h hl hh
    rw [← Nat.cast_sub hl]
    exact fl_nat (by omega)
  have side : ∀ {l1 h1 l2 h2 : Nat}, l1 ≤ h1 → l2 ≤ h2 → h1 ≤ 2 ^ 20 → h2 ≤ 2 ^ 20 →
      ∃ w : Nat, w ≤ h1 - l1 ∧ w ≤ h2 - l2 ∧ max 0 (fl (min (h1 : Rat) h2 - max (l1 : Rat) l2)) = w ∧
        max 0 (min (h1 : Rat) h2 - max (l1 : Rat) l2) = w := by
    intro l1 h1 l2 h2 a1 a2 b1 b2
    refine ⟨min h1 h2 - max l1 l2, by omega, by omega, ?_⟩
    have e1 : min (h1 : Rat) h2 = ((min h1 h2 : Nat) : Rat) := by push_cast; rfl
    have e2 : max (l1 : Rat) l2 = ((max l1 l2 : Nat) : Rat) := by push_cast; rfl
    rw [e1, e2]
    have hm : min h1 h2 ≤ 2 ^ 20 := by omega
    generalize min h1 h2 = s at *
    generalize max l1 l2 = t at *
    rcases le_total t s with hle | hle
    · rw [sub hle hm, ← Nat.cast_sub hle]
      have : (0 : Rat) ≤ ((s - t : Nat) : Rat) := Nat.cast_nonneg _
      exact ⟨max_eq_right this, max_eq_right this⟩
    · have h0 : (s : Rat) - t ≤ 0 := by
        have : (s : Rat) ≤ t := by exact_mod_cast hle
        linarith
      rw [max_eq_left (fl_le double_zero h0), max_eq_left h0, Nat.sub_eq_zero_of_le hle]
      simp
  obtain ⟨w, w1, w2, ew, ew'⟩ := side hx hu hX hU
  obtain ⟨g, g1, g2, eg, eg'⟩ := side hy hv hY hV
  have prod : ∀ {r s : Nat}, r ≤ 2 ^ 20 → s ≤ 2 ^ 20 → r * s ≤ 2 ^ 40 := by
    intro r s hr hs
    calc r * s ≤ 2 ^ 20 * 2 ^ 20 := Nat.mul_le_mul hr hs
      _ = 2 ^ 40 := by norm_num
  have mul : ∀ {r s : Nat}, r ≤ 2 ^ 20 → s ≤ 2 ^ 20 → fl ((r : Rat) * s) = ((r * s : Nat) : Rat) := by
    intro r s hr hs
    rw [← Nat.cast_mul]
    exact fl_nat (le_trans (prod hr hs) (by norm_num))
  have A1 : (x2 - x1) * (y2 - y1) ≤ 2 ^ 40 := prod (by omega) (by omega)
  have A2 : (u2 - u1) * (v2 - v1) ≤ 2 ^ 40 := prod (by omega) (by omega)
  have I1 : w * g ≤ (x2 - x1) * (y2 - y1) := Nat.mul_le_mul w1 g1
  have I2 : w * g ≤ (u2 - u1) * (v2 - v1) := Nat.mul_le_mul w2 g2
  have exact : Detection.bboxIou ⟨x1, x2, y1, y2⟩ ⟨u1, u2, v1, v2⟩
      = if (x2 - x1) * (y2 - y1) + (u2 - u1) * (v2 - v1) - w * g > 0
        then ((w * g : Nat) : Rat) / (((x2 - x1) * (y2 - y1) + (u2 - u1) * (v2 - v1) - w * g : Nat) : Rat) else 0 := by
    unfold Detection.bboxIou
    dsimp only
    rw [ew', eg', ← Nat.cast_sub hx, ← Nat.cast_sub hy, ← Nat.cast_sub hu, ← Nat.cast_sub hv, ← Nat.cast_mul, ← Nat.cast_mul,
      ← Nat.cast_mul, ← Nat.cast_add, ← Nat.cast_sub (by omega)]
    generalize (x2 - x1) * (y2 - y1) + (u2 - u1) * (v2 - v1) - w * g = N
    by_cases hN : N = 0
    · rw [hN, if_neg (by unfold Detection.EPSILON; norm_num), if_neg (by omega)]
    · have : (1 : Rat) ≤ N := by exact_mod_cast Nat.pos_of_ne_zero hN
      rw [if_pos (by unfold Detection.EPSILON; linarith), if_pos (by omega)]
  have rounded : flBbox ⟨x1, x2, y1, y2⟩ ⟨u1, u2, v1, v2⟩ = fl (Detection.bboxIou ⟨x1, x2, y1, y2⟩ ⟨u1, u2, v1, v2⟩) := by
    rw [exact]
    unfold flBbox
    dsimp only
    rw [ew, eg, sub hx hX, sub hy hY, sub hu hU, sub hv hV, mul (by omega) (by omega), mul (by omega) (by omega),
      mul (by omega) (by omega), ← Nat.cast_add, fl_nat (by omega), ← Nat.cast_sub (by omega), fl_nat (by omega)]
    generalize (x2 - x1) * (y2 - y1) + (u2 - u1) * (v2 - v1) - w * g = N
    by_cases hN : N = 0
    · have : ¬ (((0 : Nat) : Rat) ≥ fl Detection.EPSILON) := by unfold Detection.EPSILON; decide +kernel
      rw [hN, if_neg this, if_neg (by omega), fl_zero]
    · have h1 : (1 : Rat) ≤ N := by exact_mod_cast Nat.pos_of_ne_zero hN
      have : fl Detection.EPSILON ≤ 1 := fl_le double_one (by unfold Detection.EPSILON; norm_num)
      rw [if_pos (by linarith), if_pos (by omega)]
  refine ⟨rounded, ?_⟩
  rw [rounded, exact]
  by_cases hN : (x2 - x1) * (y2 - y1) + (u2 - u1) * (v2 - v1) - w * g > 0
  · rw [if_pos hN]
    apply fl_fraction hq hN hp
    calc ((x2 - x1) * (y2 - y1) + (u2 - u1) * (v2 - v1) - w * g) * q ≤ 2 ^ 41 * 2 ^ 11 := Nat.mul_le_mul (by omega) hq2
      _ < 2 ^ 53 := by norm_num
  · rw [if_neg hN, fl_zero]
    have q0 : (0 : Rat) < q := by exact_mod_cast hq
    have q1 : (q : Rat) ≤ 2 ^ 11 := by exact_mod_cast hq2
    constructor
    · intro hle
      by_contra hn
      have hpos : 0 < (p : Rat) / q := lt_of_not_ge hn
      have p1 : (1 : Rat) ≤ p := by
        rcases Nat.eq_zero_or_pos p with h0 | h0
        · rw [h0] at hpos; simp at hpos
        · exact_mod_cast h0
      have : (1 : Rat) / 2 ^ 53 ≤ (p : Rat) / q := by
        rw [div_le_div_iff₀ (by positivity) q0]
        have : (2 : Rat) ^ 11 ≤ 2 ^ 53 := by norm_num
        nlinarith
      have := le_fl double_ulp this
      have p0 : (0 : Rat) < 1 / 2 ^ 53 := by positivity
      linarith
    · intro hle
      exact fl_le double_zero hle

example : GridBox ⟨0, 3, 0, 1⟩ 0 3 0 1 ∧ GridBox ⟨1, 4, 0, 1⟩ 1 4 0 1 := by
  refine ⟨⟨?_, ?_⟩, ⟨?_, ?_⟩⟩ <;> simp

/-- The boxes `[0, 0.3] × [0, 1]` and `[0.1, 0.4] × [0, 1]`, as written by a user. -/
def written : Detection.Box × Detection.Box := (⟨0, 3 / 10, 0, 1⟩, ⟨1 / 10, 4 / 10, 0, 1⟩)

/-- The same boxes with the coordinates as doubles. -/
def stored : Detection.Box × Detection.Box := (⟨0, fl (3 / 10), 0, 1⟩, ⟨fl (1 / 10), fl (4 / 10), 0, 1⟩)

/-- **C73 fails** for boxes with decimal coordinates (for instance normalised ones): the overlap is exactly one half, the computed IoU is
below 0.5, so a pair that meets the threshold 0.5 is not matched. -/
theorem C73_decimal_violation :
    Detection.bboxIou written.1 written.2 = 1 / 2 ∧ flBbox stored.1 stored.2 < fl (1 / 2) := by decide +kernel

end Verif.Float
