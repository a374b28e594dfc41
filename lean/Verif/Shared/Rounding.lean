import Verif.Shared.Double
import Mathlib.Tactic.Ring
import Mathlib.Tactic.Positivity

/-!
# Properties of the rounding to doubles

The rounding is monotone, leaves doubles alone, and doubling is exact. From these three facts the range of every metric in
double precision follows (`RoundedRanges.lean`).
-/

namespace Verif.Shared

/-- `x` is a double (of unbounded size). -/
def IsDouble (x : Rat) : Prop := ∃ (k e : Int), |k| ≤ 2 ^ 53 ∧ -1074 ≤ e ∧ x = (k : Rat) * 2 ^ e

theorem roundEven_mono {x y : Rat} (h : x ≤ y) : roundEven x ≤ roundEven y := by
  have hx1 := Int.floor_le x
  have hx2 := Int.lt_floor_add_one x
  have hy1 := Int.floor_le y
  have hy2 := Int.lt_floor_add_one y
  have hf : ⌊x⌋ ≤ ⌊y⌋ := Int.floor_le_floor h
  rcases lt_or_eq_of_le hf with hlt | heq
  · have a : roundEven x ≤ ⌊x⌋ + 1 := by
      unfold roundEven
      dsimp only
      split
      · omega
      · split
        · omega
        · split <;> omega
    have b : ⌊y⌋ ≤ roundEven y := by
      unfold roundEven
      dsimp only
      split
      · omega
      · split
        · omega
        · split <;> omega
    omega
  · unfold roundEven
    dsimp only
    rw [heq] at hx1 hx2 ⊢
    split
    · split
      · omega
      · split
        · omega
        · split <;> omega
    · rename_i h1
      split
      · rename_i h2
        have : ¬ (y - (⌊y⌋ : Rat) < 1 / 2) := by intro h3; linarith
        rw [if_neg this, if_pos (by linarith)]
      · rename_i h2
        have : ¬ (y - (⌊y⌋ : Rat) < 1 / 2) := by intro h3; linarith
        rw [if_neg this]
        split
        · split <;> omega
        · split <;> omega

theorem roundEven_int (k : Int) : roundEven (k : Rat) = k := by
  unfold roundEven
  simp

theorem roundEven_neg (x : Rat) : roundEven (-x) = - roundEven x := by
  have hx1 := Int.floor_le x
  have hx2 := Int.lt_floor_add_one x
  by_cases hi : (⌊x⌋ : Rat) = x
  · rw [← hi, roundEven_int]
    have : (-(⌊x⌋ : Rat)) = ((-⌊x⌋ : Int) : Rat) := by push_cast; rfl
    rw [this, roundEven_int]
  · have hlt : (⌊x⌋ : Rat) < x := lt_of_le_of_ne hx1 hi
    have hf : ⌊-x⌋ = -⌊x⌋ - 1 := by
      rw [Int.floor_eq_iff]
      push_cast
      constructor <;> linarith
    unfold roundEven
    dsimp only
    rw [hf]
    push_cast
    by_cases h1 : x - (⌊x⌋ : Rat) < 1 / 2
    · rw [if_pos h1, if_neg (by linarith), if_pos (by linarith)]; omega
    · rw [if_neg h1]
      by_cases h2 : 1 / 2 < x - (⌊x⌋ : Rat)
      · rw [if_pos h2, if_pos (by linarith)]; omega
      · rw [if_neg h2, if_neg (by linarith), if_neg (by linarith)]
        split <;> split <;> omega

/-- The exponent of the last bit. -/
def lastBit (x : Rat) : Int := max (Int.log 2 |x| - 52) (-1074)

theorem fl_eq {x : Rat} (h : x ≠ 0) : fl x = roundEven (x / 2 ^ lastBit x) * 2 ^ lastBit x := by
  unfold fl lastBit
  rw [if_neg h]

theorem fl_zero : fl 0 = 0 := by simp [fl]

theorem fl_neg (x : Rat) : fl (-x) = - fl x := by
  by_cases h : x = 0
  · simp [h, fl_zero]
  · rw [fl_eq h, fl_eq (neg_ne_zero.2 h)]
    have : lastBit (-x) = lastBit x := by unfold lastBit; rw [abs_neg]
    rw [this, neg_div, roundEven_neg]
    push_cast
    ring

theorem two_zpow_pos (e : Int) : (0 : Rat) < 2 ^ e := zpow_pos (by norm_num) e

/-- Below the exponent of the last bit nothing is rounded. -/
theorem fl_grid {x : Rat} {k e : Int} (hx : x = (k : Rat) * 2 ^ e) (he : lastBit x ≤ e) : fl x = x := by
  by_cases h : x = 0
  · rw [h, fl_zero]
  · rw [fl_eq h]
    obtain ⟨d, hd⟩ : ∃ d : Nat, e = lastBit x + d := ⟨(e - lastBit x).toNat, by omega⟩
    have hp := two_zpow_pos (lastBit x)
    have hk : x / 2 ^ lastBit x = ((k * 2 ^ d : Int) : Rat) := by
      rw [div_eq_iff (ne_of_gt hp)]
      generalize lastBit x = b at *
      rw [hx, hd, zpow_add₀ (by norm_num)]
      push_cast
      rw [zpow_natCast]
      ring
    rw [hk, roundEven_int, ← hk, div_mul_cancel₀ _ (ne_of_gt hp)]

theorem log_le {x : Rat} (hx : 0 < x) : (2 : Rat) ^ Int.log 2 x ≤ x := by
  have := Int.zpow_log_le_self (b := 2) (r := x) (by norm_num) hx
  simpa using this

theorem lt_log {x : Rat} : x < (2 : Rat) ^ (Int.log 2 x + 1) := by
  have := Int.lt_zpow_succ_log_self (b := 2) (by norm_num) x
  simpa using this

theorem log_lt {x : Rat} {e : Int} (hx : 0 < x) (h : x < 2 ^ e) : Int.log 2 x < e := by
  have := (Int.lt_zpow_iff_log_lt (b := 2) (by norm_num) (x := e) hx).1 (by simpa using h)
  exact this

/-- The rounding leaves a double alone. -/
theorem fl_double {x : Rat} (h : IsDouble x) : fl x = x := by
  obtain ⟨k, e, hk, he, hx⟩ := h
  have key : ∀ (k e : Int), |k| < 2 ^ 53 → -1074 ≤ e → x = (k : Rat) * 2 ^ e → fl x = x := by
    intro k e hk he hx
    by_cases h0 : x = 0
    · rw [h0, fl_zero]
    · apply fl_grid hx
      unfold lastBit
      have hlt : |x| < 2 ^ (e + 53) := by
        rw [hx, abs_mul, abs_of_pos (two_zpow_pos e), zpow_add₀ (by norm_num), mul_comm ((2 : Rat) ^ e)]
        apply mul_lt_mul_of_pos_right _ (two_zpow_pos e)
        have : ((|k| : Int) : Rat) < ((2 ^ 53 : Int) : Rat) := by exact_mod_cast hk
        rw [Int.cast_abs] at this
        refine lt_of_lt_of_eq this ?_
        norm_num
      have := log_lt (abs_pos.2 h0) hlt
      omega
  rcases lt_or_eq_of_le hk with hk | hk
  · exact key k e hk he hx
  · rcases abs_eq (by norm_num : (0 : Int) ≤ 2 ^ 53) |>.1 hk with rfl | rfl
    · refine key (2 ^ 52) (e + 1) (by decide) (by omega) ?_
      rw [hx, zpow_add₀ (by norm_num)]; norm_num; ring
    · refine key (-2 ^ 52) (e + 1) (by decide) (by omega) ?_
      rw [hx, zpow_add₀ (by norm_num)]; norm_num; ring

theorem double_int {k : Int} (h : |k| ≤ 2 ^ 53) : IsDouble k := ⟨k, 0, h, by norm_num, by simp⟩

theorem double_nat {n : Nat} (h : n ≤ 2 ^ 53) : IsDouble n := by
  have := double_int (k := (n : Int)) (by rw [abs_of_nonneg (by omega)]; exact_mod_cast h)
  simpa using this

theorem double_two_mul {x : Rat} (h : IsDouble x) : IsDouble (2 * x) := by
  obtain ⟨k, e, hk, he, hx⟩ := h
  exact ⟨k, e + 1, hk, by omega, by rw [hx, zpow_add₀ (by norm_num)]; ring⟩

theorem double_neg {x : Rat} (h : IsDouble x) : IsDouble (-x) := by
  obtain ⟨k, e, hk, he, hx⟩ := h
  exact ⟨-k, e, by rw [abs_neg]; exact hk, he, by rw [hx]; push_cast; ring⟩

/-- The rounding yields a double. -/
theorem double_fl (x : Rat) : IsDouble (fl x) := by
  by_cases h : x = 0
  · rw [h, fl_zero]; exact ⟨0, 0, by norm_num, by norm_num, by simp⟩
  · rw [fl_eq h]
    refine ⟨roundEven (x / 2 ^ lastBit x), lastBit x, ?_, by unfold lastBit; omega, rfl⟩
    have hp := two_zpow_pos (lastBit x)
    have hlt : |x / 2 ^ lastBit x| ≤ ((2 ^ 53 : Int) : Rat) := by
      rw [abs_div, abs_of_pos hp, div_le_iff₀ hp]
      have h1 := lt_log (x := |x|)
      have h2 : (2 : Rat) ^ (Int.log 2 |x| + 1) ≤ 2 ^ (53 + lastBit x) :=
        zpow_le_zpow_right₀ (by norm_num) (by unfold lastBit; omega)
      rw [zpow_add₀ (by norm_num) 53] at h2
      refine le_of_lt (lt_of_lt_of_le (lt_of_lt_of_le h1 h2) (le_of_eq ?_))
      norm_num
    rw [abs_le] at hlt ⊢
    constructor
    · have := roundEven_mono hlt.1
      have e : (-((2 ^ 53 : Int) : Rat)) = ((-2 ^ 53 : Int) : Rat) := by norm_num
      rw [e, roundEven_int] at this
      exact this
    · have := roundEven_mono hlt.2
      rw [roundEven_int] at this
      exact this

theorem fl_fl (x : Rat) : fl (fl x) = fl x := fl_double (double_fl x)

theorem fl_nonneg {x : Rat} (h : 0 ≤ x) : 0 ≤ fl x := by
  by_cases h0 : x = 0
  · rw [h0, fl_zero]
  · rw [fl_eq h0]
    have hp := two_zpow_pos (lastBit x)
    have := roundEven_mono (x := ((0 : Int) : Rat)) (y := x / 2 ^ lastBit x) (by push_cast; positivity)
    rw [roundEven_int] at this
    exact mul_nonneg (by exact_mod_cast this) (le_of_lt hp)

/-- On positive numbers the rounding is monotone. -/
theorem fl_mono_pos {x y : Rat} (hx : 0 < x) (h : x ≤ y) : fl x ≤ fl y := by
  have hy : 0 < y := lt_of_lt_of_le hx h
  have hlog : Int.log 2 x ≤ Int.log 2 y := Int.log_mono_right hx h
  have lx : lastBit x = max (Int.log 2 x - 52) (-1074) := by unfold lastBit; rw [abs_of_pos hx]
  have ly : lastBit y = max (Int.log 2 y - 52) (-1074) := by unfold lastBit; rw [abs_of_pos hy]
  have px := two_zpow_pos (lastBit x)
  have py := two_zpow_pos (lastBit y)
  rw [fl_eq (ne_of_gt hx), fl_eq (ne_of_gt hy)]
  by_cases he : lastBit x = lastBit y
  · rw [he]
    apply mul_le_mul_of_nonneg_right _ (le_of_lt py)
    exact_mod_cast roundEven_mono (div_le_div_of_nonneg_right h (le_of_lt py))
  · -- a power of two separates them
    have hb1 : lastBit x ≤ Int.log 2 y := by omega
    have hb2 : lastBit y ≤ Int.log 2 y := by omega
    have hlt : Int.log 2 x + 1 ≤ Int.log 2 y := by omega
    have hxB : x ≤ 2 ^ Int.log 2 y :=
      le_trans (le_of_lt lt_log) (zpow_le_zpow_right₀ (by norm_num) hlt)
    have hBy : (2 : Rat) ^ Int.log 2 y ≤ y := log_le hy
    have grid : ∀ e : Int, e ≤ Int.log 2 y → ∃ m : Int, (2 : Rat) ^ Int.log 2 y / 2 ^ e = (m : Rat) := by
      intro e he
      obtain ⟨d, hd⟩ : ∃ d : Nat, Int.log 2 y = e + d := ⟨(Int.log 2 y - e).toNat, by omega⟩
      refine ⟨2 ^ d, ?_⟩
      rw [hd, zpow_add₀ (by norm_num), mul_div_assoc, mul_comm, div_mul_cancel₀ _ (ne_of_gt (two_zpow_pos e)), zpow_natCast]
      push_cast
      rfl
    obtain ⟨m, hm⟩ := grid _ hb1
    obtain ⟨m', hm'⟩ := grid _ hb2
    have a : (roundEven (x / 2 ^ lastBit x) : Rat) * 2 ^ lastBit x ≤ 2 ^ Int.log 2 y := by
      have := roundEven_mono (div_le_div_of_nonneg_right hxB (le_of_lt px))
      rw [hm, roundEven_int] at this
      rw [← le_div_iff₀ px, hm]
      exact_mod_cast this
    have b : (2 : Rat) ^ Int.log 2 y ≤ (roundEven (y / 2 ^ lastBit y) : Rat) * 2 ^ lastBit y := by
      have := roundEven_mono (div_le_div_of_nonneg_right hBy (le_of_lt py))
      rw [hm', roundEven_int] at this
      rw [← div_le_iff₀ py, hm']
      exact_mod_cast this
    exact le_trans a b

/-- The rounding is monotone. -/
theorem fl_mono {x y : Rat} (h : x ≤ y) : fl x ≤ fl y := by
  rcases lt_trichotomy x 0 with hx | hx | hx
  · rcases lt_or_ge y 0 with hy | hy
    · have := fl_mono_pos (x := -y) (y := -x) (by linarith) (by linarith)
      rw [fl_neg, fl_neg] at this
      linarith
    · have a := fl_nonneg (x := -x) (by linarith)
      rw [fl_neg] at a
      have b := fl_nonneg hy
      linarith
  · rw [hx, fl_zero]; exact fl_nonneg (by linarith)
  · exact fl_mono_pos hx h

/-- A double above a number is above its rounding. -/
theorem fl_le {x d : Rat} (hd : IsDouble d) (h : x ≤ d) : fl x ≤ d := by
  have := fl_mono h
  rwa [fl_double hd] at this

/-- A double below a number is below its rounding. -/
theorem le_fl {x d : Rat} (hd : IsDouble d) (h : d ≤ x) : d ≤ fl x := by
  have := fl_mono h
  rwa [fl_double hd] at this

theorem double_zero : IsDouble 0 := by simpa using double_nat (n := 0) (by norm_num)
theorem double_one : IsDouble 1 := by simpa using double_nat (n := 1) (by norm_num)

/-- The rounding of a number of the unit interval is in the unit interval. -/
theorem fl_unit {x : Rat} (h0 : 0 ≤ x) (h1 : x ≤ 1) : 0 ≤ fl x ∧ fl x ≤ 1 := ⟨fl_nonneg h0, fl_le double_one h1⟩

/-- The error is at most half of the last bit. -/
theorem fl_error (x : Rat) : |fl x - x| ≤ 2 ^ lastBit x / 2 := by
  by_cases h : x = 0
  · subst h; rw [fl_zero]; simp only [sub_zero, abs_zero]; have := two_zpow_pos (lastBit 0); linarith
  · have hp := two_zpow_pos (lastBit x)
    have hn := roundEven_near (x / 2 ^ lastBit x)
    rw [fl_eq h]
    have e : (roundEven (x / 2 ^ lastBit x) : Rat) * 2 ^ lastBit x - x
        = ((roundEven (x / 2 ^ lastBit x) : Rat) - x / 2 ^ lastBit x) * 2 ^ lastBit x := by
      rw [sub_mul, div_mul_cancel₀ _ (ne_of_gt hp)]
    rw [e, abs_mul, abs_of_pos hp]
    have := mul_le_mul_of_nonneg_right hn (le_of_lt hp)
    linarith

/-- The sum of two doubles has a small relative error, also near zero. -/
theorem fl_add_error {a b : Rat} (ha : IsDouble a) (hb : IsDouble b) (h : 0 ≤ a + b) :
    |fl (a + b) - (a + b)| ≤ (a + b) / 2 ^ 53 := by
  rcases eq_or_lt_of_le h with h0 | h0
  · rw [← h0, fl_zero]; simp
  · by_cases hs : Int.log 2 |a + b| - 52 ≤ -1074
    · obtain ⟨c, hc⟩ : ∃ c : Int, c = -1074 := ⟨_, rfl⟩
      have grid : ∀ x, IsDouble x → ∃ k : Int, x = (k : Rat) * 2 ^ c := by
        rintro x ⟨k, e, _, he, hx⟩
        obtain ⟨d, hd⟩ : ∃ d : Nat, e = c + d := ⟨(e - c).toNat, by omega⟩
        refine ⟨k * 2 ^ d, ?_⟩
        rw [hx, hd, zpow_add₀ (by norm_num), zpow_natCast]
        push_cast
        ring
      obtain ⟨k, hk⟩ := grid a ha
      obtain ⟨l, hl⟩ := grid b hb
      have : fl (a + b) = a + b := by
        apply fl_grid (k := k + l) (e := c)
        · rw [hk, hl]; push_cast; ring
        · unfold lastBit; omega
      rw [this]
      simp only [sub_self, abs_zero]
      positivity
    · have he := fl_error (a + b)
      have hb : lastBit (a + b) = Int.log 2 (a + b) - 52 := by
        unfold lastBit; rw [abs_of_pos h0] at hs ⊢; omega
      rw [hb] at he
      have hl := log_le h0
      refine le_trans he ?_
      rw [zpow_sub₀ (by norm_num), le_div_iff₀ (by positivity)]
      have e : (2 : Rat) ^ Int.log 2 (a + b) / 2 ^ (52 : Int) / 2 * 2 ^ 53 = 2 ^ Int.log 2 (a + b) := by
        rw [show ((2 : Rat) ^ (52 : Int)) = 2 ^ 52 by norm_cast]
        ring
      rw [e]
      exact hl

/-- Numbers of the unit interval that are further apart than `2 ^ -53` round to different doubles. -/
theorem fl_lt {x y : Rat} (hx : 0 ≤ x) (hy : y ≤ 1) (h : x + 1 / 2 ^ 53 < y) : fl x < fl y := by
  have small : ∀ z : Rat, 0 ≤ z → z ≤ 1 → |fl z - z| ≤ 1 / 2 ^ 54 := by
    intro z h0 h1
    rcases eq_or_lt_of_le h0 with h0 | h0
    · rw [← h0, fl_zero]; simp
    · rcases eq_or_lt_of_le h1 with h1 | h1
      · rw [h1, fl_double double_one]; simp
      · refine le_trans (fl_error z) ?_
        have hl := log_lt (e := 0) h0 (by simpa using h1)
        have : (2 : Rat) ^ lastBit z ≤ 2 ^ (-53 : Int) :=
          zpow_le_zpow_right₀ (by norm_num) (by unfold lastBit; rw [abs_of_pos h0]; omega)
        have e : (2 : Rat) ^ (-53 : Int) = 1 / 2 ^ 53 := by rw [zpow_neg]; norm_num
        rw [e] at this
        have e2 : (1 : Rat) / 2 ^ 54 = 1 / 2 ^ 53 / 2 := by norm_num
        rw [e2]
        linarith
  have p : (0 : Rat) < 1 / 2 ^ 53 := by positivity
  have a := small x hx (by linarith)
  have b := small y (by linarith) hy
  rw [abs_le] at a b
  have e2 : (1 : Rat) / 2 ^ 53 = 1 / 2 ^ 54 + 1 / 2 ^ 54 := by norm_num
  rw [e2] at h
  linarith [a.2, b.1]

end Verif.Shared
