import Verif.Float.Decide

/-!
# C73: how far from the threshold a decision can flip

For all boxes with double coordinates the computed IoU is close to the exact IoU of the stored boxes, so only pairs within the rounding
error of a threshold are decided differently. The F1 scores are compared with exact F1 scores in the same way.
-/

namespace Verif.Float

open Verif.Shared

/-- The rounding error: relative, or tiny. -/
theorem fl_err (x : Rat) : |fl x - x| ≤ 1 / 2 ^ 53 * |x| + 1 / 2 ^ 200 := by
  by_cases h : x = 0
  · rw [h, fl_zero]; simp
  · have hx : 0 < |x| := abs_pos.2 h
    refine le_trans (fl_error x) ?_
    by_cases hc : Int.log 2 |x| - 52 ≤ -1074
    · have hb : lastBit x ≤ -199 := by
        unfold lastBit
        rw [max_eq_right hc]
        norm_num
      have : (2 : Rat) ^ lastBit x ≤ 2 ^ (-199 : Int) := zpow_le_zpow_right₀ (by norm_num) hb
      have e : (2 : Rat) ^ (-199 : Int) / 2 = 1 / 2 ^ 200 := by rw [zpow_neg]; norm_num
      have l : (2 : Rat) ^ lastBit x / 2 ≤ 1 / 2 ^ 200 := by
        rw [← e]; exact div_le_div_of_nonneg_right this (by norm_num)
      have p : (0 : Rat) ≤ 1 / 2 ^ 53 * |x| := by positivity
      linarith
    · rw [not_le] at hc
      have hb : lastBit x = Int.log 2 |x| + (-52) := by
        unfold lastBit
        rw [max_eq_left hc.le]; ring
      have hl := log_le hx
      have e : (2 : Rat) ^ lastBit x / 2 = 1 / 2 ^ 53 * 2 ^ Int.log 2 |x| := by
        rw [hb, zpow_add₀ (by norm_num), zpow_neg]
        norm_num
        ring
      rw [e]
      have : 1 / 2 ^ 53 * (2 : Rat) ^ Int.log 2 |x| ≤ 1 / 2 ^ 53 * |x| := mul_le_mul_of_nonneg_left hl (by norm_num)
      have p : (0 : Rat) ≤ 1 / 2 ^ 200 := by positivity
      linarith

/-- A difference of doubles, cut off at 0. -/
theorem side_err {a b : Rat} (ha : IsDouble a) (hb : IsDouble b) :
    |max 0 (fl (b - a)) - max 0 (b - a)| ≤ 1 / 2 ^ 53 * max 0 (b - a) := by
  rcases le_total 0 (b - a) with h | h
  · have := fl_add_error hb (double_neg ha) (by linarith)
    rw [← sub_eq_add_neg] at this
    rw [max_eq_right h, max_eq_right (fl_nonneg h)]
    calc _ ≤ _ := this
      _ = _ := by ring
  · have : fl (b - a) ≤ 0 := fl_le double_zero h
    rw [max_eq_left h, max_eq_left this]
    simp

theorem prod_err {w h W H : Rat} (hW : 0 ≤ W) (hH : 0 ≤ H) (hw : |w - W| ≤ 1 / 2 ^ 53 * W) (hh : |h - H| ≤ 1 / 2 ^ 53 * H) :
    |fl (w * h) - W * H| ≤ 4 / 2 ^ 53 * (W * H) + 1 / 2 ^ 200 := by
  have hP : 0 ≤ W * H := mul_nonneg hW hH
  have e : w * h - W * H = (w - W) * H + W * (h - H) + (w - W) * (h - H) := by ring
  have a1 : |(w - W) * H| ≤ 1 / 2 ^ 53 * (W * H) := by
    rw [abs_mul, abs_of_nonneg hH]
    calc |w - W| * H ≤ (1 / 2 ^ 53 * W) * H := mul_le_mul_of_nonneg_right hw hH
      _ = _ := by ring
  have a2 : |W * (h - H)| ≤ 1 / 2 ^ 53 * (W * H) := by
    rw [abs_mul, abs_of_nonneg hW]
    calc W * |h - H| ≤ W * (1 / 2 ^ 53 * H) := mul_le_mul_of_nonneg_left hh hW
      _ = _ := by ring
  have a3 : |(w - W) * (h - H)| ≤ 1 / 2 ^ 106 * (W * H) := by
    rw [abs_mul]
    calc |w - W| * |h - H| ≤ (1 / 2 ^ 53 * W) * (1 / 2 ^ 53 * H) := mul_le_mul hw hh (abs_nonneg _) (by positivity)
      _ = _ := by ring
  have b : |w * h - W * H| ≤ (2 / 2 ^ 53 + 1 / 2 ^ 106) * (W * H) := by
    rw [e]
    have := abs_add_le ((w - W) * H + W * (h - H)) ((w - W) * (h - H))
    have := abs_add_le ((w - W) * H) (W * (h - H))
    have r : (2 / 2 ^ 53 + 1 / 2 ^ 106) * (W * H) = 1 / 2 ^ 53 * (W * H) + 1 / 2 ^ 53 * (W * H) + 1 / 2 ^ 106 * (W * H) := by ring
    rw [r]
    linarith
  have c := fl_err (w * h)
  have f : |w * h| ≤ (1 + (2 / 2 ^ 53 + 1 / 2 ^ 106)) * (W * H) := by
    have := abs_add_le (w * h - W * H) (W * H)
    rw [sub_add_cancel, abs_of_nonneg hP] at this
    linarith
  have g : |fl (w * h) - W * H| ≤ |fl (w * h) - w * h| + |w * h - W * H| := by
    have := abs_add_le (fl (w * h) - w * h) (w * h - W * H)
    rwa [sub_add_sub_cancel] at this
  generalize |w * h| = q at *
  generalize |fl (w * h) - w * h| = q1 at *
  generalize |w * h - W * H| = q2 at *
  generalize |fl (w * h) - W * H| = q3 at *
  generalize W * H = P at *
  norm_num at *
  linarith

/-- The quotient of intersection and union with both computed. -/
theorem quot_err {i un I U : Rat} (hI : 0 ≤ I) (hIU : I ≤ U) (hU : 1 / 2 ^ 70 ≤ U) (hi : |i - I| ≤ 4 / 2 ^ 53 * I + 2 / 2 ^ 200)
    (i0 : 0 ≤ i) (hun : |un - U| ≤ 19 / 2 ^ 53 * U) : |fl (i / un) - I / U| ≤ 1 / 2 ^ 48 := by
  have U0 : 0 < U := lt_of_lt_of_le (by norm_num) hU
  have unb : U * (99 / 100) ≤ un := by
    rw [abs_le] at hun
    norm_num at *
    linarith [hun.1]
  have un0 : 0 < un := by nlinarith
  have e : i / un - I / U = (i - I) / un + I * (U - un) / (un * U) := by
    field_simp
    ring
  have a1 : |(i - I) / un| ≤ 5 / 2 ^ 53 := by
    rw [abs_div, abs_of_pos un0, div_le_iff₀ un0]
    refine le_trans hi ?_
    norm_num at *
    nlinarith
  have a2 : |I * (U - un) / (un * U)| ≤ 20 / 2 ^ 53 := by
    rw [abs_div, abs_mul, abs_of_nonneg hI, abs_of_pos (mul_pos un0 U0), div_le_iff₀ (mul_pos un0 U0), abs_sub_comm]
    calc I * |un - U| ≤ U * (19 / 2 ^ 53 * U) := mul_le_mul hIU hun (abs_nonneg _) U0.le
      _ ≤ 20 / 2 ^ 53 * (un * U) := by
        have : U * U * (99 / 100) ≤ un * U := by nlinarith
        norm_num at *
        nlinarith
  have a : |i / un - I / U| ≤ 25 / 2 ^ 53 := by
    rw [e]
    refine le_trans (abs_add_le _ _) ?_
    have : (25 : Rat) / 2 ^ 53 = 5 / 2 ^ 53 + 20 / 2 ^ 53 := by norm_num
    rw [this]
    linarith
  have q1 : I / U ≤ 1 := div_le_one_of_le₀ hIU U0.le
  have z2 : i / un ≤ 2 := by
    rw [abs_le] at a
    norm_num at *
    linarith [a.2]
  have z0 : 0 ≤ i / un := div_nonneg i0 un0.le
  have r := fl_err (i / un)
  rw [abs_of_nonneg z0] at r
  have g : |fl (i / un) - I / U| ≤ |fl (i / un) - i / un| + |i / un - I / U| := by
    have := abs_add_le (fl (i / un) - i / un) (i / un - I / U)
    rwa [sub_add_sub_cancel] at this
  generalize |fl (i / un) - i / un| = x1 at *
  generalize |i / un - I / U| = x2 at *
  norm_num at *
  linarith

/-- A box with double coordinates whose corners are in order. -/
def StoredBox (a : Detection.Box) : Prop :=
  IsDouble a.xmin ∧ IsDouble a.xmax ∧ IsDouble a.ymin ∧ IsDouble a.ymax ∧ a.xmin ≤ a.xmax ∧ a.ymin ≤ a.ymax

theorem double_max {a b : Rat} (ha : IsDouble a) (hb : IsDouble b) : IsDouble (max a b) := by
  rcases max_choice a b with h | h <;> rw [h] <;> assumption

theorem double_min {a b : Rat} (ha : IsDouble a) (hb : IsDouble b) : IsDouble (min a b) := by
  rcases min_choice a b with h | h <;> rw [h] <;> assumption

/-- The union from the computed areas. -/
theorem union_err {a1 a2 i A1 A2 I : Rat} (da1 : IsDouble a1) (da2 : IsDouble a2) (di : IsDouble i) (a10 : 0 ≤ a1) (a20 : 0 ≤ a2)
    (I0 : 0 ≤ I) (Ia : I ≤ A1) (Ib : I ≤ A2) (hU : (2 : Rat) / 1000000000 ≤ A1 + A2 - I)
    (ha1 : |a1 - A1| ≤ 4 / 2 ^ 53 * A1 + 1 / 2 ^ 200) (ha2 : |a2 - A2| ≤ 4 / 2 ^ 53 * A2 + 1 / 2 ^ 200)
    (hi : |i - I| ≤ 4 / 2 ^ 53 * I + 1 / 2 ^ 200) :
    |fl (fl (a1 + a2) - i) - (A1 + A2 - I)| ≤ 19 / 2 ^ 53 * (A1 + A2 - I) := by
  have es := fl_add_error da1 da2 (by linarith)
  have ds := double_fl (a1 + a2)
  generalize fl (a1 + a2) = s at *
  have hs : |s - (A1 + A2)| ≤ 6 / 2 ^ 53 * (A1 + A2) + 3 / 2 ^ 200 := by
    clear hi hU
    rw [abs_le] at *
    norm_num at *
    constructor <;> linarith [es.1, es.2, ha1.1, ha1.2, ha2.1, ha2.2]
  have hsi : 0 ≤ s - i := by
    clear ha1 ha2 es
    rw [abs_le] at hs hi
    norm_num at *
    linarith [hs.1, hi.2]
  have eu := fl_add_error ds (double_neg di) (by linarith)
  rw [← sub_eq_add_neg] at eu
  generalize fl (s - i) = un at *
  clear ha1 ha2 es
  rw [abs_le] at *
  norm_num at *
  constructor <;> linarith [eu.1, eu.2, hs.1, hs.2, hi.1, hi.2]

/-- **C73 (error of the IoU).** For all boxes with double coordinates whose union covers at least `2e-9`: the computed IoU differs from
the exact IoU of the boxes by at most `2 ^ -48`. -/
theorem C73_iou_error {a b : Detection.Box} (ha : StoredBox a) (hb : StoredBox b)
    (hU : 2 * Detection.EPSILON ≤ (a.xmax - a.xmin) * (a.ymax - a.ymin) + (b.xmax - b.xmin) * (b.ymax - b.ymin)
      - max 0 (min a.xmax b.xmax - max a.xmin b.xmin) * max 0 (min a.ymax b.ymax - max a.ymin b.ymin)) :
    |flBbox a b - Detection.bboxIou a b| ≤ 1 / 2 ^ 48 := by
  obtain ⟨ax, aX, ay, aY, hax, hay⟩ := ha
  obtain ⟨bx, bX, by_, bY, hbx, hby⟩ := hb
  have sw := side_err (double_max ax bx) (double_min aX bX)
  have sh := side_err (double_max ay by_) (double_min aY bY)
  have ew := fl_add_error aX (double_neg ax) (by linarith)
  have eh := fl_add_error aY (double_neg ay) (by linarith)
  have fw := fl_add_error bX (double_neg bx) (by linarith)
  have fh := fl_add_error bY (double_neg by_) (by linarith)
  rw [← sub_eq_add_neg, div_eq_inv_mul, ← one_div] at ew eh fw fh
  have W0 : 0 ≤ max 0 (min a.xmax b.xmax - max a.xmin b.xmin) := le_max_left _ _
  have H0 : 0 ≤ max 0 (min a.ymax b.ymax - max a.ymin b.ymin) := le_max_left _ _
  have hi := prod_err W0 H0 sw sh
  have ha1 := prod_err (sub_nonneg.2 hax) (sub_nonneg.2 hay) ew eh
  have ha2 := prod_err (sub_nonneg.2 hbx) (sub_nonneg.2 hby) fw fh
  have i0 : 0 ≤ fl (max 0 (fl (min a.xmax b.xmax - max a.xmin b.xmin)) * max 0 (fl (min a.ymax b.ymax - max a.ymin b.ymin))) :=
    fl_nonneg (mul_nonneg (le_max_left _ _) (le_max_left _ _))
  have Wa : max 0 (min a.xmax b.xmax - max a.xmin b.xmin) ≤ a.xmax - a.xmin :=
    max_le (by linarith) (by linarith [min_le_left a.xmax b.xmax, le_max_left a.xmin b.xmin])
  have Ha : max 0 (min a.ymax b.ymax - max a.ymin b.ymin) ≤ a.ymax - a.ymin :=
    max_le (by linarith) (by linarith [min_le_left a.ymax b.ymax, le_max_left a.ymin b.ymin])
  have Wb : max 0 (min a.xmax b.xmax - max a.xmin b.xmin) ≤ b.xmax - b.xmin :=
    max_le (by linarith) (by linarith [min_le_right a.xmax b.xmax, le_max_right a.xmin b.xmin])
  have Hb : max 0 (min a.ymax b.ymax - max a.ymin b.ymin) ≤ b.ymax - b.ymin :=
    max_le (by linarith) (by linarith [min_le_right a.ymax b.ymax, le_max_right a.ymin b.ymin])
  have Ia := mul_le_mul Wa Ha H0 (sub_nonneg.2 hax)
  have Ib := mul_le_mul Wb Hb H0 (sub_nonneg.2 hbx)
  have I0 := mul_nonneg W0 H0
  have da1 := double_fl (fl (a.xmax - a.xmin) * fl (a.ymax - a.ymin))
  have da2 := double_fl (fl (b.xmax - b.xmin) * fl (b.ymax - b.ymin))
  have di := double_fl (max 0 (fl (min a.xmax b.xmax - max a.xmin b.xmin)) * max 0 (fl (min a.ymax b.ymax - max a.ymin b.ymin)))
  have a10 : 0 ≤ fl (fl (a.xmax - a.xmin) * fl (a.ymax - a.ymin)) :=
    fl_nonneg (mul_nonneg (fl_nonneg (by linarith)) (fl_nonneg (by linarith)))
  have a20 : 0 ≤ fl (fl (b.xmax - b.xmin) * fl (b.ymax - b.ymin)) :=
    fl_nonneg (mul_nonneg (fl_nonneg (by linarith)) (fl_nonneg (by linarith)))
  unfold flBbox Detection.bboxIou
  dsimp only
  generalize fl (max 0 (fl (min a.xmax b.xmax - max a.xmin b.xmin)) * max 0 (fl (min a.ymax b.ymax - max a.ymin b.ymin))) = i at *
  generalize fl (fl (a.xmax - a.xmin) * fl (a.ymax - a.ymin)) = a1 at *
  generalize fl (fl (b.xmax - b.xmin) * fl (b.ymax - b.ymin)) = a2 at *
  generalize max 0 (min a.xmax b.xmax - max a.xmin b.xmin) * max 0 (min a.ymax b.ymax - max a.ymin b.ymin) = I at *
  generalize (a.xmax - a.xmin) * (a.ymax - a.ymin) = A1 at *
  generalize (b.xmax - b.xmin) * (b.ymax - b.ymin) = A2 at *
  have hU' : (2 : Rat) / 1000000000 ≤ A1 + A2 - I := by
    have e : 2 * Detection.EPSILON = 2 / 1000000000 := by unfold Detection.EPSILON; norm_num
    rw [e] at hU
    exact hU
  have hun := union_err da1 da2 di a10 a20 I0 Ia Ib hU' ha1 ha2 hi
  generalize fl (fl (a1 + a2) - i) = un at *
  have heps : fl Detection.EPSILON ≤ un := by
    have e : fl Detection.EPSILON ≤ 3 / 2000000000 := by decide +kernel
    rw [abs_le] at hun
    clear ha1 ha2 hi sw sh ew eh fw fh
    norm_num at *
    linarith [hun.1]
  have heps' : A1 + A2 - I ≥ Detection.EPSILON := by
    unfold Detection.EPSILON
    norm_num at hU' ⊢
    linarith
  rw [if_pos heps, if_pos heps']
  exact quot_err I0 (by linarith) (by norm_num at hU' ⊢; linarith) (by norm_num at hi ⊢; linarith) i0 hun

/-- **C73 (margin).** For boxes with double coordinates, a decision at a threshold `t` between 0 and 1 differs from the decision in exact
arithmetic only if the exact IoU is within `2 ^ -47` of the threshold. -/
theorem C73_margin {a b : Detection.Box} (ha : StoredBox a) (hb : StoredBox b)
    (hU : 2 * Detection.EPSILON ≤ (a.xmax - a.xmin) * (a.ymax - a.ymin) + (b.xmax - b.xmin) * (b.ymax - b.ymin)
      - max 0 (min a.xmax b.xmax - max a.xmin b.xmin) * max 0 (min a.ymax b.ymax - max a.ymin b.ymin))
    {t : Rat} (t0 : 0 ≤ t) (t1 : t ≤ 1) (h : 1 / 2 ^ 47 ≤ |Detection.bboxIou a b - t|) :
    fl t ≤ flBbox a b ↔ t ≤ Detection.bboxIou a b := by
  have e := C73_iou_error ha hb hU
  have r := fl_error_unit t0 t1
  generalize flBbox a b = x at *
  generalize Detection.bboxIou a b = y at *
  rw [abs_le] at e r
  rcases le_or_gt t y with hy | hy
  · rw [abs_of_nonneg (by linarith)] at h
    refine ⟨fun _ => hy, fun _ => ?_⟩
    norm_num at *
    linarith [e.1, r.2]
  · rw [abs_of_neg (by linarith)] at h
    refine ⟨fun hx => ?_, fun hx => absurd hx (not_le.2 hy)⟩
    exfalso
    norm_num at *
    linarith [e.2, r.1]

/-! ## F1 -/

/-- A ratio of counts and its rounding. -/
def Rounded (p P : Rat) : Prop := p = fl P ∧ 0 ≤ P ∧ P ≤ 1 ∧ (P = 0 ∨ 1 / 2 ^ 53 ≤ P)

theorem rounded_ratio {a b : Nat} (h : a ≤ b) (hb : b ≤ 2 ^ 53) :
    Rounded (flRatio a b) (if b > 0 then (a : Rat) / (b : Rat) else 0) := by
  unfold Rounded flRatio
  split
  · rename_i h0
    obtain ⟨u, v⟩ := div_unit (a := (a : Rat)) (b := b) (Nat.cast_nonneg _) (by exact_mod_cast h)
    refine ⟨flDiv_eq (by omega) hb, u, v, ?_⟩
    rcases Nat.eq_zero_or_pos a with ha | ha
    · left; rw [ha]; simp
    · right
      have a1 : (1 : Rat) ≤ a := by exact_mod_cast ha
      have b0 : (0 : Rat) < b := by exact_mod_cast h0
      have b1 : (b : Rat) ≤ 2 ^ 53 := by exact_mod_cast hb
      rw [div_le_div_iff₀ (by norm_num) b0]
      linarith
  · exact ⟨fl_zero.symm, le_refl _, zero_le_one, Or.inl rfl⟩

/-- The rounding of a number that is not tiny has a small relative error. -/
theorem fl_rel {x : Rat} (h : 1 / 2 ^ 60 ≤ x) : |fl x - x| ≤ 1 / 2 ^ 53 * x := by
  have hx : 0 < x := lt_of_lt_of_le (by norm_num) h
  refine le_trans (fl_error x) ?_
  have hl : -60 ≤ Int.log 2 x := by
    rw [← Int.zpow_le_iff_le_log (by norm_num) hx]
    refine le_trans (le_of_eq ?_) h
    rw [zpow_neg]; norm_num
  have hb : lastBit x = Int.log 2 x + (-52) := by
    unfold lastBit
    rw [abs_of_pos hx, max_eq_left (by omega)]; ring
  have e : (2 : Rat) ^ lastBit x / 2 = 1 / 2 ^ 53 * 2 ^ Int.log 2 x := by
    rw [hb, zpow_add₀ (by norm_num), zpow_neg]
    norm_num
    ring
  rw [e]
  exact mul_le_mul_of_nonneg_left (log_le hx) (by norm_num)

theorem Rounded.double {p P : Rat} (h : Rounded p P) : IsDouble p := by rw [h.1]; exact double_fl P

theorem Rounded.unit {p P : Rat} (h : Rounded p P) : Unit01 p := by
  refine ⟨h.double, ?_⟩
  rw [h.1]
  exact fl_unit h.2.1 h.2.2.1

theorem Rounded.err {p P : Rat} (h : Rounded p P) : |p - P| ≤ 1 / 2 ^ 53 * P := by
  obtain ⟨rfl, h0, _, h2⟩ := h
  rcases h2 with rfl | h2
  · rw [fl_zero]; simp
  · exact fl_rel (le_trans (by norm_num) h2)

/-- Both ways to compute the numerator of F1. -/
theorem numerator_err {p r P R : Rat} (hp : Rounded p P) (hr : Rounded r R) :
    |fl (fl (2 * p) * r) - 2 * (P * R)| ≤ 4 / 2 ^ 53 * (2 * (P * R)) + 2 / 2 ^ 200 ∧
    |fl (2 * fl (p * r)) - 2 * (P * R)| ≤ 4 / 2 ^ 53 * (2 * (P * R)) + 2 / 2 ^ 200 := by
  have ep := hp.err
  have er := hr.err
  constructor
  · rw [fl_double (double_two_mul hp.double)]
    have := prod_err (w := 2 * p) (W := 2 * P) (h := r) (H := R) (by linarith [hp.2.1]) hr.2.1 (by
      rw [← mul_sub, abs_mul, abs_of_pos (by norm_num : (0 : Rat) < 2)]
      linarith) er
    rw [mul_assoc 2 P R] at this
    refine le_trans this ?_
    norm_num
  · rw [fl_double (double_two_mul (double_fl _))]
    have := prod_err hp.2.1 hr.2.1 ep er
    rw [← mul_sub, abs_mul, abs_of_pos (by norm_num : (0 : Rat) < 2)]
    have e : 4 / 2 ^ 53 * (2 * (P * R)) + 2 / 2 ^ 200 = 2 * (4 / 2 ^ 53 * (P * R) + 1 / 2 ^ 200) := by ring
    rw [e]
    linarith

theorem denominator_err {p r P R : Rat} (hp : Rounded p P) (hr : Rounded r R) :
    |fl (p + r) - (P + R)| ≤ 3 / 2 ^ 53 * (P + R) := by
  have ep := hp.err
  have er := hr.err
  have es := fl_add_error hp.double hr.double (by linarith [hp.unit.2.1, hr.unit.2.1])
  have hP := hp.2.1
  have hR := hr.2.1
  rw [abs_le] at *
  norm_num at *
  constructor <;> linarith [ep.1, ep.2, er.1, er.2, es.1, es.2]

/-- The quotient of F1. -/
theorem f1_quot {p r P R n : Rat} (hp : Rounded p P) (hr : Rounded r R) (hD : 1 / 2 ^ 53 ≤ P + R)
    (hn : |n - 2 * (P * R)| ≤ 4 / 2 ^ 53 * (2 * (P * R)) + 2 / 2 ^ 200) (n0 : 0 ≤ n) :
    |fl (n / fl (p + r)) - 2 * (P * R) / (P + R)| ≤ 1 / 2 ^ 48 := by
  have hP := hp.2.1
  have hR := hr.2.1
  refine quot_err (by positivity) ?_ (le_trans (by norm_num) hD) hn n0 ?_
  · nlinarith [hp.2.2.1, hr.2.2.1, mul_nonneg hP (sub_nonneg.2 hr.2.2.1), mul_nonneg hR (sub_nonneg.2 hp.2.2.1)]
  · refine le_trans (denominator_err hp hr) ?_
    apply mul_le_mul_of_nonneg_right _ (by linarith)
    norm_num

theorem numerator_nonneg {p r : Rat} (hp : Unit01 p) (hr : Unit01 r) : 0 ≤ fl (fl (2 * p) * r) ∧ 0 ≤ fl (2 * fl (p * r)) :=
  ⟨fl_nonneg (mul_nonneg (fl_nonneg (mul_nonneg (by norm_num) hp.2.1)) hr.2.1),
   fl_nonneg (mul_nonneg (by norm_num) (fl_nonneg (mul_nonneg hp.2.1 hr.2.1)))⟩

theorem zero_f1 {p r P R : Rat} (hp : Rounded p P) (hr : Rounded r R) (h : P + R = 0) : fl (p + r) = 0 := by
  have hP := hp.2.1
  have hR := hr.2.1
  have e1 : P = 0 := by linarith
  have e2 : R = 0 := by linarith
  rw [hp.1, hr.1, e1, e2, fl_zero, add_zero, fl_zero]

/-- **C72 (F1 error).** For precision and recall that are ratios of counts, rounded, and whose exact sum is either 0 or at least `2e-9`
(for instance with at most `5 * 10 ^ 8` predictions, `C72_f1_counts`), the F1 scores of the three tasks differ from the exact F1 score by
at most `2 ^ -48`. -/
theorem C72_f1_error {p r P R : Rat} (hp : Rounded p P) (hr : Rounded r R) (h : P + R = 0 ∨ 2 / 1000000000 ≤ P + R) :
    |clsF1 p r - Classification.f1 P R| ≤ 1 / 2 ^ 48 ∧ |detF1 p r - Detection.f1 P R| ≤ 1 / 2 ^ 48 := by
  obtain ⟨n1, n2⟩ := numerator_err hp hr
  obtain ⟨m1, m2⟩ := numerator_nonneg hp.unit hr.unit
  rcases h with h | h
  · have hz := zero_f1 hp hr h
    have e1 : ¬ ((0 : Rat) > fl (1 / 1000000000)) := by decide +kernel
    unfold clsF1 detF1 Classification.f1 Detection.f1 Detection.EPSILON
    rw [hz, if_neg e1, if_neg e1, h, if_neg (by norm_num), if_neg (by norm_num)]
    norm_num
  · have hD : 1 / 2 ^ 53 ≤ P + R := le_trans (by norm_num) h
    have hd : fl (p + r) > fl (1 / 1000000000) := by
      have e : fl (1 / 1000000000) < 3 / 2000000000 := by decide +kernel
      have := denominator_err hp hr
      rw [abs_le] at this
      norm_num at *
      linarith [this.1]
    unfold clsF1 detF1 Classification.f1 Detection.f1 Detection.EPSILON
    rw [if_pos hd, if_pos hd, if_pos (by norm_num at *; linarith), if_pos (by norm_num at *; linarith)]
    refine ⟨?_, f1_quot hp hr hD n2 m2⟩
    rw [mul_assoc 2 P R]
    exact f1_quot hp hr hD n1 m1

/-- **C72 (F1 of counts).** For every classification count array with at most `5 * 10 ^ 8` predictions of a label and up to `2 ^ 53` ground
truths, and for every detection count with the same bounds, the computed F1 differs from the exact one by at most `2 ^ -48`. -/
theorem C72_f1_counts :
    (∀ c : Classification.Counts, c.tp + c.fp ≤ 5 * 10 ^ 8 → c.tp + c.fn ≤ 2 ^ 53 →
      |clsF1 (clsPrecision c) (clsRecall c) - Classification.f1 (Classification.precision c) (Classification.recall c)| ≤ 1 / 2 ^ 48) ∧
    (∀ tp fp n : Nat, tp + fp ≤ 5 * 10 ^ 8 → tp ≤ n → n ≤ 2 ^ 53 →
      |detF1 (detPrecision tp fp) (detRecall tp n) - Detection.f1 (Detection.precision tp fp) (Detection.recall tp n)| ≤ 1 / 2 ^ 48) := by
  have key : ∀ {tp a b : Nat}, tp ≤ a → tp ≤ b → a ≤ 5 * 10 ^ 8 →
      ((if a > 0 then (tp : Rat) / (a : Rat) else 0) + (if b > 0 then (tp : Rat) / (b : Rat) else 0) = 0 ∨
       2 / 1000000000 ≤ (if a > 0 then (tp : Rat) / (a : Rat) else 0) + (if b > 0 then (tp : Rat) / (b : Rat) else 0)) := by
    intro tp a b ha hb h
    rcases Nat.eq_zero_or_pos tp with h0 | h0
    · left; subst h0; simp
    · right
      have a0 : 0 < a := by omega
      rw [if_pos a0]
      have t1 : (1 : Rat) ≤ tp := by exact_mod_cast h0
      have a1 : (0 : Rat) < a := by exact_mod_cast a0
      have a2 : (a : Rat) ≤ 5 * 10 ^ 8 := by exact_mod_cast h
      have q : 2 / 1000000000 ≤ (tp : Rat) / a := by
        rw [div_le_div_iff₀ (by norm_num) a1]
        linarith
      have q2 : (0 : Rat) ≤ if b > 0 then (tp : Rat) / (b : Rat) else 0 := by split <;> positivity
      linarith
  refine ⟨fun c h1 h2 => ?_, fun tp fp n h1 h2 h3 => ?_⟩
  · exact (C72_f1_error (rounded_ratio (a := c.tp) (b := c.tp + c.fp) (by omega) (by omega))
      (rounded_ratio (a := c.tp) (b := c.tp + c.fn) (by omega) h2) (key (by omega) (by omega) h1)).1
  · exact (C72_f1_error (rounded_ratio (a := tp) (b := tp + fp) (by omega) (by omega))
      (rounded_ratio (a := tp) (b := n) h2 h3) (key (by omega) h2 h1)).2

/-! ## Segmentation -/

theorem divide_eq {a b : Nat} : Segmentation.divide a b = if b > 0 then (a : Rat) / (b : Rat) else 0 := by
  unfold Segmentation.divide
  by_cases h : b > 0
  · have : (1 : Rat) ≤ b := by exact_mod_cast h
    rw [if_pos h, if_pos (by norm_num; linarith)]
  · have : b = 0 := by omega
    subst this
    rw [if_neg (by norm_num), if_neg (by norm_num)]

/-- **C72 (segmentation values).** For images with up to `2 ^ 53` pixels altogether every ratio is the exact one, rounded once, and F1
differs from the exact F1 by at most `2 ^ -48`. -/
theorem C72_segmentation_values {n : Nat} {m : Nat → Nat → Nat} (h : Segmentation.allPixels n m ≤ 2 ^ 53) :
    (∀ i < n, segPrecision n m i = fl (Segmentation.precision n m i) ∧ segRecall n m i = fl (Segmentation.recall n m i) ∧
      segUnmatchedPd n m i = fl (Segmentation.unmatchedPrediction n m i) ∧
      segUnmatchedGt n m i = fl (Segmentation.unmatchedGroundtruth n m i) ∧
      |segF1 (segPrecision n m i) (segRecall n m i) - Segmentation.f1 n m i| ≤ 1 / 2 ^ 48) ∧
    (∀ i < n, ∀ j < n, segIou n m i j = fl (Segmentation.iou n m i j)) ∧
    segAccuracy n m = fl (Segmentation.accuracy n m) := by
  have h64 : Segmentation.allPixels n m < 2 ^ 64 := by omega
  have hg : ∀ i < n, Segmentation.gtCounts n m i = Segmentation.gtPixels n m i := fun i hi =>
    Segmentation.u64_small (x := Segmentation.gtPixels n m i) (lt_of_le_of_lt (Segmentation.gtPixels_le m hi) h64)
  have hp : ∀ i < n, Segmentation.pdCounts n m i = Segmentation.pdPixels n m i := fun i hi =>
    Segmentation.u64_small (x := Segmentation.pdPixels n m i) (lt_of_le_of_lt (Segmentation.pdPixels_le m hi) h64)
  refine ⟨fun i hi => ?_, fun i hi j hj => ?_, ?_⟩
  · have gl := Segmentation.gtPixels_le m hi
    have pl := Segmentation.pdPixels_le m hi
    have g1 := Segmentation.entry_le_gt (i := i) m (show i + 1 ≤ n by omega)
    have p1 := Segmentation.entry_le_pd (j := i) m (show i + 1 ≤ n by omega)
    have g0 := Segmentation.entry_le_gt (i := i) m (show 0 ≤ n by omega)
    have p0 := Segmentation.entry_le_pd (j := i) m (show 0 ≤ n by omega)
    have r1 := rounded_ratio p1 (by omega)
    have r2 := rounded_ratio g1 (by omega)
    have r3 := rounded_ratio p0 (by omega)
    have r4 := rounded_ratio g0 (by omega)
    unfold Segmentation.f1 segPrecision segRecall segUnmatchedPd segUnmatchedGt Segmentation.precision Segmentation.recall
      Segmentation.unmatchedPrediction Segmentation.unmatchedGroundtruth
    rw [hg i hi, hp i hi, divide_eq, divide_eq, divide_eq, divide_eq]
    refine ⟨r1.1, r2.1, r3.1, r4.1, ?_⟩
    generalize (if Segmentation.pdPixels n m i > 0 then ((m (i + 1) (i + 1) : Nat) : Rat) / ((Segmentation.pdPixels n m i : Nat) : Rat) else 0) = P at *
    generalize (if Segmentation.gtPixels n m i > 0 then ((m (i + 1) (i + 1) : Nat) : Rat) / ((Segmentation.gtPixels n m i : Nat) : Rat) else 0) = R at *
    generalize flRatio (m (i + 1) (i + 1)) (Segmentation.pdPixels n m i) = p at *
    generalize flRatio (m (i + 1) (i + 1)) (Segmentation.gtPixels n m i) = r at *
    have hP := r1.2.1
    have hR := r2.2.1
    rcases eq_or_lt_of_le (add_nonneg hP hR) with h0 | h0
    · unfold segF1
      rw [zero_f1 r1 r2 h0.symm, if_neg (lt_irrefl _), if_neg (by rw [← h0]; exact lt_irrefl _)]
      norm_num
    · have hD : 1 / 2 ^ 53 ≤ P + R := by
        rcases r1.2.2.2 with e | e
        · rcases r2.2.2.2 with e' | e'
          · rw [e, e'] at h0; norm_num at h0
          · linarith
        · linarith
      have hd : fl (p + r) > 0 := by
        have := denominator_err r1 r2
        rw [abs_le] at this
        norm_num at *
        linarith [this.1]
      unfold segF1
      rw [if_pos hd, if_pos h0]
      exact f1_quot r1 r2 hD (numerator_err r1 r2).2 (numerator_nonneg r1.unit r2.unit).2
  · unfold segIou Segmentation.iou
    rw [hg i hi, hp j hj]
    have hle := Segmentation.union_le m hi hj
    have g1 := Segmentation.entry_le_gt (i := i) m (show j + 1 ≤ n by omega)
    have p1 := Segmentation.entry_le_pd (j := j) m (show i + 1 ≤ n by omega)
    have e : (((Segmentation.gtPixels n m i + Segmentation.pdPixels n m j : Nat) : Int) - ((m (i + 1) (j + 1) : Nat) : Int))
        = ((Segmentation.gtPixels n m i + Segmentation.pdPixels n m j - m (i + 1) (j + 1) : Nat) : Int) := by omega
    rw [e, Segmentation.u64_small (lt_of_le_of_lt hle h64), divide_eq]
    exact (rounded_ratio (by omega) (by omega)).1
  · have hN : Segmentation.nPixels n m = Segmentation.allPixels n m := Segmentation.u64_small (x := Segmentation.allPixels n m) h64
    have hd : Segmentation.upTo (n + 1) (fun i => m i i) ≤ Segmentation.allPixels n m := by
      apply Segmentation.upTo_le
      intro i hi
      exact Segmentation.le_upTo (fun j => m i j) hi
    have hs := Segmentation.upTo_shift n (fun i => m i i)
    have e1 : Segmentation.u64 (((List.range n).map (fun i => m (i + 1) (i + 1))).sum : Nat)
        = Segmentation.upTo n (fun i => m (i + 1) (i + 1)) :=
      Segmentation.u64_small (x := Segmentation.upTo n (fun i => m (i + 1) (i + 1))) (by omega)
    unfold segAccuracy Segmentation.accuracy
    dsimp only
    rw [e1, hN, Segmentation.u64_small (by omega)]
    exact (rounded_ratio (by omega) h).1

/-! ## Text generation -/

/-- **C72 (answer correctness).** The F1 of answer correctness is the exact one, rounded once. -/
theorem C72_answer_f1 {tp fp fn : Nat} (h : tp + fp + fn ≤ 2 ^ 51) : answerF1 tp fp fn = fl (TextGen.f1Score tp fp fn) := by
  unfold answerF1 TextGen.f1Score
  split
  · have half : IsDouble (1 / 2 * ((fp + fn : Nat) : Rat)) :=
      ⟨((fp + fn : Nat) : Int), -1, by rw [abs_of_nonneg (by omega)]; exact_mod_cast (by omega : fp + fn ≤ 2 ^ 53), by norm_num, by
        rw [zpow_neg]; norm_num; ring⟩
    have whole : IsDouble ((tp : Rat) + 1 / 2 * ((fp + fn : Nat) : Rat)) :=
      ⟨((2 * tp + fp + fn : Nat) : Int), -1, by rw [abs_of_nonneg (by omega)]; exact_mod_cast (by omega : 2 * tp + fp + fn ≤ 2 ^ 53),
        by norm_num, by rw [zpow_neg]; push_cast; norm_num; ring⟩
    rw [fl_nat (n := tp) (by omega), fl_nat (n := fp + fn) (by omega), fl_double half, fl_double whole]
    push_cast
    rfl
  · exact fl_zero.symm

example : TextGen.f1Score 2 1 0 = 4 / 5 ∧ answerF1 2 1 0 = fl (4 / 5) := by decide +kernel

/-- **C72 (error of a mean).** The mean of `n` doubles in the unit interval (mAP, mAR, mIoU, mean ROCAUC of values up to 1), added in any
order, differs from the exact mean by at most `(n + 1) / 2 ^ 52`. -/
theorem C72_mean_error {xs : List Rat} {v : Rat} (h : IsMean xs v) (hx : ∀ x ∈ xs, IsDouble x ∧ 0 ≤ x ∧ x ≤ 1) (hne : xs ≠ [])
    (hl : xs.length ≤ 2 ^ 52) : |v - xs.sum / (xs.length : Rat)| ≤ ((xs.length : Rat) + 1) / 2 ^ 52 := by
  obtain ⟨s, hs, rfl⟩ := h
  obtain ⟨s0, s1⟩ := hs.range (fun x h => (hx x h).2) (by omega)
  obtain ⟨e1, e2⟩ := hs.error (fun x h => ⟨(hx x h).1, (hx x h).2.1⟩)
  obtain ⟨p1, p2⟩ := pow_small (n := xs.length - 1) (by omega)
  rw [fl_nat (n := xs.length) (by omega)]
  have S0 : 0 ≤ xs.sum := List.sum_nonneg (fun x h => (hx x h).2.1)
  have S1 : xs.sum ≤ (xs.length : Rat) := by
    have := List.sum_le_card_nsmul xs 1 (fun x h => (hx x h).2.2)
    simpa using this
  have npos : (1 : Rat) ≤ (xs.length : Rat) := by exact_mod_cast List.length_pos_iff.2 hne
  have hm : ((xs.length - 1 : Nat) : Rat) = (xs.length : Rat) - 1 := by
    rw [Nat.cast_sub (List.length_pos_iff.2 hne)]; simp
  rw [hm] at p1 p2
  have q1 := le_trans e2 (mul_le_mul_of_nonneg_right p1 S0)
  have q2 := le_trans (mul_le_mul_of_nonneg_right p2 S0) e1
  have hq := fl_error_unit (z := s / (xs.length : Rat)) (div_nonneg s0 (by linarith)) (div_le_one_of_le₀ s1 (by linarith))
  generalize (xs.length : Rat) = n at *
  generalize xs.sum = S at *
  have d : |s / n - S / n| ≤ 2 * n * (1 / 2 ^ 53) := by
    rw [← sub_div, abs_div, abs_of_pos (by linarith : 0 < n), div_le_iff₀ (by linarith)]
    have b : 2 * (n - 1) * (1 / 2 ^ 53) * S ≤ 2 * n * (1 / 2 ^ 53) * n := by
      have : (n - 1) * S ≤ n * n := mul_le_mul (by linarith) S1 S0 (by linarith)
      norm_num at *
      linarith
    rw [abs_le]
    constructor <;> nlinarith
  have g : |fl (s / n) - S / n| ≤ |fl (s / n) - s / n| + |s / n - S / n| := by
    have := abs_add_le (fl (s / n) - s / n) (s / n - S / n)
    rwa [sub_add_sub_cancel] at this
  generalize |fl (s / n) - s / n| = x1 at *
  generalize |s / n - S / n| = x2 at *
  norm_num at *
  linarith

/-- **C72 (context precision).** Context precision with `n` relevant contexts differs from the exact value by at most `(n + 2) / 2 ^ 52`. -/
theorem C72_context_precision (agg : List Bool) (hlen : agg.length ≤ 2 ^ 52) :
    |flContextPrecision agg - TextGen.contextPrecisionOf agg| ≤ (((TextGen.precisionAtK agg).length : Rat) + 2) / 2 ^ 52 := by
  have hl : (TextGen.precisionAtK agg).length ≤ 2 ^ 52 := by
    refine le_trans ?_ hlen
    unfold TextGen.precisionAtK
    refine le_trans (List.length_filterMap_le _ _) ?_
    rw [List.length_range]
  have hu : ∀ y ∈ TextGen.precisionAtK agg, 0 ≤ y ∧ y ≤ 1 := by
    intro y hy
    unfold TextGen.precisionAtK at hy
    obtain ⟨k, _, hk⟩ := List.mem_filterMap.1 hy
    split at hk
    · obtain rfl := Option.some.inj hk
      have hc : (agg.take (k + 1)).count true ≤ k + 1 :=
        le_trans List.count_le_length (by rw [List.length_take]; omega)
      exact div_unit (a := (((agg.take (k + 1)).count true : Nat) : Rat)) (b := ((k + 1 : Nat) : Rat))
        (Nat.cast_nonneg _) (by exact_mod_cast hc)
    · simp at hk
  unfold flContextPrecision TextGen.contextPrecisionOf
  dsimp only
  generalize TextGen.precisionAtK agg = ps at *
  rw [List.length_map]
  by_cases hne : ps.length = 0
  · rw [if_pos hne, if_pos hne, hne]; norm_num
  · rw [if_neg hne, if_neg hne]
    have hs := seqSum_sums (ys := ps.map fl) Sums.nil
    rw [List.nil_append] at hs
    have hm := C72_mean_error (xs := ps.map fl) ⟨_, hs, rfl⟩ (by
      intro x hx
      obtain ⟨y, hy, rfl⟩ := List.mem_map.1 hx
      exact ⟨double_fl y, fl_unit (hu y hy).1 (hu y hy).2⟩) (by
      intro h; apply hne; rw [List.map_eq_nil_iff.1 h]; rfl) (by rw [List.length_map]; exact hl)
    rw [List.length_map] at hm
    have he := map_sum_error (l := ps) (f := fl) (e := 1 / 2 ^ 54) (fun x hx => fl_error_unit (hu x hx).1 (hu x hx).2)
    have npos : (1 : Rat) ≤ (ps.length : Rat) := by exact_mod_cast Nat.pos_of_ne_zero hne
    generalize fl (seqSum 0 (ps.map fl) / fl (ps.length : Rat)) = F at *
    generalize (ps.map fl).sum = T at *
    generalize ps.sum = S at *
    generalize (ps.length : Rat) = n at *
    have d : |T / n - S / n| ≤ 1 / 2 ^ 54 := by
      rw [← sub_div, abs_div, abs_of_pos (by linarith : 0 < n), div_le_iff₀ (by linarith)]
      linarith
    have g : |F - S / n| ≤ |F - T / n| + |T / n - S / n| := by
      have := abs_add_le (F - T / n) (T / n - S / n)
      rwa [sub_add_sub_cancel] at this
    generalize |F - T / n| = x1 at *
    generalize |T / n - S / n| = x2 at *
    norm_num at *
    linarith

/-- The boxes of the violation meet the hypotheses of `C73_iou_error`: the deviation there is real but bounded. -/
example : StoredBox stored.1 ∧ StoredBox stored.2 := by
  refine ⟨⟨double_zero, double_fl _, double_zero, double_one, ?_, ?_⟩, ⟨double_fl _, double_fl _, double_zero, double_one, ?_, ?_⟩⟩ <;>
  decide +kernel

end Verif.Float
