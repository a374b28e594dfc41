import Verif.Float.Margin
import Verif.Float.MetricsProps

/-!
# C77: recall levels and average precision in double precision
-/

namespace Verif.Float

open Verif.Shared Verif.Detection

/-- `np.floor(recall * 100.0).astype(np.int32)` (`object_detection/computation.py` 484-491): the quotient and the product are
rounded before the floor. -/
def flBin (c n : Nat) : Nat := (⌊fl (flRatio c n * 100)⌋).toNat

/-- The points of one label in one table (`object_detection/computation.py` 453-491), with rounding. -/
def flPoints (t : Rat) (n : Nat) : Nat → Nat → List RRow → List Point × (Nat × Nat)
  | total, tp, [] => ([], (total, tp))
  | total, tp, r :: rs =>
    let c := if tpOuter t r then tp + 1 else 0
    let rest := flPoints t n (total + 1) (if tpOuter t r then tp + 1 else tp) rs
    (⟨flBin c n, flRatio c (total + 1), r.row.score⟩ :: rest.1, rest.2)

/-- The effect of `compute_counts` on the curve of label `l` (`object_detection/computation.py` 475-529), with rounding. -/
def flCurveStep (t : Rat) (n : Nat) (l : Int) (c : Curve) (rows : List RRow) : Curve :=
  let r := flPoints t n c.total c.tp (rows.filter (fun r => decide (r.row.pl = l)))
  ⟨r.2.1, r.2.2, updatePrec c.prec r.1, updateScore c.score r.1⟩

/-- The loop over the tables of the ranked cache (`object_detection/evaluator.py` 456-481), with rounding. -/
def flCurveOf (t : Rat) (n : Nat) (l : Int) (chunks : List (List RRow)) : Curve := chunks.foldl (flCurveStep t n l) Curve.init

/-! ## The recall bin -/

/-- The recall levels at which the double falls below the level. -/
def LowLevel (k : Nat) : Prop := k = 29 ∨ k = 57 ∨ k = 58

instance (k : Nat) : Decidable (LowLevel k) := by unfold LowLevel; infer_instance

theorem levels_check : ∀ (k : Nat), k < 101 → ⌊fl (fl ((k : Rat) / 100) * 100)⌋ = (k : Int) - if LowLevel k then 1 else 0 := by
  decide +kernel

/-- **C77 (bins).** For up to 2^44 ground truths the recall bin computed with doubles is the exact one, except for the recalls
29/100, 57/100 and 58/100, which are put one bin too low. -/
theorem C77_bin {c n : Nat} (hn : 0 < n) (hc : c ≤ n) (hb : n ≤ 2 ^ 44) :
    (flBin c n : Int) = ⌊(100 * c : Rat) / n⌋ - if 100 * c = 29 * n ∨ 100 * c = 57 * n ∨ 100 * c = 58 * n then 1 else 0 := by
  have hn0 : (0 : Rat) < n := by exact_mod_cast hn
  have hcn : (c : Rat) ≤ n := by exact_mod_cast hc
  have hnb : (n : Rat) ≤ 2 ^ 44 := by exact_mod_cast hb
  have hx1 : (c : Rat) / n ≤ 1 := by rw [div_le_one hn0]; exact hcn
  have hx0 : (0 : Rat) ≤ (c : Rat) / n := by positivity
  have hR : flRatio c n = fl ((c : Rat) / n) := by
    unfold flRatio flDiv
    rw [if_pos hn, fl_double (double_nat (by omega)), fl_double (double_nat (by omega))]
  have hnat : ((flBin c n : Nat) : Int) = ⌊fl (fl ((c : Rat) / n) * 100)⌋ := by
    unfold flBin
    rw [hR]
    apply Int.toNat_of_nonneg
    apply Int.floor_nonneg.2
    apply fl_nonneg
    have := fl_nonneg hx0
    positivity
  rw [hnat]
  by_cases hd : ∃ k : Nat, 100 * c = k * n
  · obtain ⟨k, hk⟩ := hd
    have hk' : k < 101 := by
      by_contra h
      have : 101 * n ≤ k * n := Nat.mul_le_mul_right _ (by omega)
      omega
    have e : (c : Rat) / n = (k : Rat) / 100 := by
      rw [div_eq_div_iff hn0.ne' (by norm_num)]
      have : (100 * c : Rat) = k * n := by exact_mod_cast hk
      linarith
    have e2 : (100 * c : Rat) / n = ((k : Int) : Rat) := by
      rw [mul_div_assoc, e]
      push_cast
      ring
    rw [e, levels_check k hk', e2, Int.floor_intCast]
    congr 1
    have hiff : ∀ m : Nat, 100 * c = m * n ↔ k = m := by
      intro m
      rw [hk]
      exact Nat.mul_left_inj (by omega)
    simp only [hiff]
    rfl
  · rw [if_neg (by
      rintro (h | h | h)
      · exact hd ⟨29, h⟩
      · exact hd ⟨57, h⟩
      · exact hd ⟨58, h⟩), sub_zero]
    obtain ⟨k, hk⟩ : ∃ k : Int, k = ⌊(100 * c : Rat) / n⌋ := ⟨_, rfl⟩
    have f1 := Int.floor_le ((100 * c : Rat) / n)
    have f2 := Int.lt_floor_add_one ((100 * c : Rat) / n)
    rw [← hk] at f1 f2 ⊢
    rw [le_div_iff₀ hn0] at f1
    rw [div_lt_iff₀ hn0] at f2
    have k0 : 0 ≤ k := by
      rw [hk]
      apply Int.floor_nonneg.2
      positivity
    have g1 : (k : Rat) * n + 1 ≤ 100 * c := by
      have h1 : k * (n : Int) ≤ 100 * (c : Int) := by exact_mod_cast f1
      have h2 : k * (n : Int) ≠ 100 * (c : Int) := by
        intro h
        apply hd
        refine ⟨k.toNat, ?_⟩
        have : ((k.toNat : Nat) : Int) = k := Int.toNat_of_nonneg k0
        have h3 : ((k.toNat : Nat) : Int) * (n : Int) = 100 * (c : Int) := by rw [this]; exact h
        exact_mod_cast h3.symm
      have h3 : k * (n : Int) + 1 ≤ 100 * (c : Int) := by omega
      exact_mod_cast h3
    have g2 : 100 * (c : Rat) + 1 ≤ (k + 1) * n := by
      have h1 : 100 * (c : Int) < (k + 1) * (n : Int) := by exact_mod_cast f2
      have h2 : 100 * (c : Int) + 1 ≤ (k + 1) * (n : Int) := by omega
      exact_mod_cast h2
    obtain ⟨x, hx⟩ : ∃ x : Rat, x = (c : Rat) / n := ⟨_, rfl⟩
    rw [← hx] at hx0 hx1 ⊢
    have hinv : (1 : Rat) / 2 ^ 44 ≤ 1 / n := one_div_le_one_div_of_le hn0 hnb
    have hcx : (100 * c : Rat) = 100 * x * n := by rw [hx]; field_simp
    have b1 : (k : Rat) + 1 / 2 ^ 44 ≤ 100 * x := by
      have : (k : Rat) + 1 / n ≤ 100 * x := by
        rw [hcx] at g1
        have : ((k : Rat) + 1 / n) * n ≤ 100 * x * n := by
          rw [add_mul, one_div, inv_mul_cancel₀ hn0.ne']
          exact g1
        exact le_of_mul_le_mul_right this hn0
      linarith
    have b2 : 100 * x + 1 / 2 ^ 44 ≤ (k : Rat) + 1 := by
      have : 100 * x + 1 / n ≤ (k : Rat) + 1 := by
        rw [hcx] at g2
        have : (100 * x + 1 / n) * n ≤ ((k : Rat) + 1) * n := by
          rw [add_mul, one_div, inv_mul_cancel₀ hn0.ne']
          exact g2
        exact le_of_mul_le_mul_right this hn0
      linarith
    obtain ⟨z0, z1⟩ := fl_unit hx0 hx1
    have e1 := fl_err x
    have e2 := fl_err (fl x * 100)
    rw [abs_of_nonneg hx0] at e1
    rw [abs_of_nonneg (by positivity : (0 : Rat) ≤ fl x * 100)] at e2
    obtain ⟨e1a, e1b⟩ := abs_le.1 e1
    obtain ⟨e2a, e2b⟩ := abs_le.1 e2
    rw [Int.floor_eq_iff]
    constructor
    · norm_num at *
      linarith
    · norm_num at *
      linarith

/-! ## The curve -/

/-- Running counts of true positives and predictions at each row of the label. -/
def steps (t : Rat) : Nat → Nat → List RRow → List (Nat × Nat × Rat)
  | _, _, [] => []
  | total, tp, r :: rs =>
    (if tpOuter t r then tp + 1 else 0, total + 1, r.row.score) :: steps t (total + 1) (if tpOuter t r then tp + 1 else tp) rs

/-- Exact bin. -/
def exBin (c n : Nat) : Nat := (⌊recall c n * 100⌋).toNat

theorem points_steps (t : Rat) (n : Nat) (rows : List RRow) (total tp : Nat) :
    (points t n total tp rows).1 = (steps t total tp rows).map (fun s => ⟨exBin s.1 n, (s.1 : Rat) / (s.2.1 : Rat), s.2.2⟩) := by
  induction rows generalizing total tp with
  | nil => rfl
  | cons r rs ih =>
    rw [points, steps, List.map_cons]
    dsimp only
    rw [ih]
    rfl

theorem flPoints_steps (t : Rat) (n : Nat) (rows : List RRow) (total tp : Nat) :
    (flPoints t n total tp rows).1 = (steps t total tp rows).map (fun s => ⟨flBin s.1 n, flRatio s.1 s.2.1, s.2.2⟩) := by
  induction rows generalizing total tp with
  | nil => rfl
  | cons r rs ih =>
    rw [flPoints, steps, List.map_cons]
    dsimp only
    rw [ih]

theorem flPoints_append (t : Rat) (n : Nat) (a b : List RRow) (total tp : Nat) :
    (flPoints t n total tp (a ++ b)).1 = (flPoints t n total tp a).1 ++
      (flPoints t n (flPoints t n total tp a).2.1 (flPoints t n total tp a).2.2 b).1 := by
  induction a generalizing total tp with
  | nil => rfl
  | cons r rs ih =>
    rw [List.cons_append, flPoints, flPoints]
    dsimp only
    rw [ih]
    rfl

theorem flCurve_aux (t : Rat) (n : Nat) (l : Int) (chunks : List (List RRow)) (c : Curve) :
    (chunks.foldl (flCurveStep t n l) c).prec = updatePrec c.prec (flPoints t n c.total c.tp
      (chunks.flatten.filter (fun r => decide (r.row.pl = l)))).1 := by
  induction chunks generalizing c with
  | nil =>
    funext b
    simp [updatePrec, flPoints]
  | cons a cs ih =>
    rw [List.foldl_cons, ih, List.flatten_cons, List.filter_append, flPoints_append t n _ _ _ _, ← updatePrec_append]
    rfl

theorem flCurve_prec (t : Rat) (n : Nat) (l : Int) (chunks : List (List RRow)) :
    (flCurveOf t n l chunks).prec = updatePrec (fun _ => 0) (flPoints t n 0 0
      (chunks.flatten.filter (fun r => decide (r.row.pl = l)))).1 := flCurve_aux t n l chunks Curve.init

theorem steps_bound (t : Rat) (rows : List RRow) (total tp : Nat) (h : tp ≤ total) :
    ∀ s ∈ steps t total tp rows, s.1 ≤ s.2.1 ∧ 0 < s.2.1 ∧ s.2.1 ≤ total + rows.length ∧ s.1 ≤ tp + (rows.map (tpOuter t)).count true := by
  induction rows generalizing total tp with
  | nil => simp [steps]
  | cons r rs ih =>
    intro s hs
    rw [steps, List.mem_cons] at hs
    rw [List.map_cons, List.count_cons, List.length_cons]
    rcases hs with rfl | hs
    · dsimp only
      cases tpOuter t r <;> (simp; try omega)
    · have := ih (total + 1) (if tpOuter t r then tp + 1 else tp) (by split <;> omega) s hs
      cases hr : tpOuter t r <;> simp [hr] at this ⊢ <;> omega

/-- The highest exact precision among the steps in bin `b`, for any way to assign bins. -/
def peak (bin : Nat → Nat) (ss : List (Nat × Nat × Rat)) (b : Nat) : Rat :=
  ((ss.filter (fun s => decide (bin s.1 = b))).map (fun s => (s.1 : Rat) / (s.2.1 : Rat))).foldl max 0

theorem foldl_max_fl (l : List Rat) (a : Rat) : (l.map fl).foldl max (fl a) = fl (l.foldl max a) := by
  induction l generalizing a with
  | nil => rfl
  | cons x l ih => rw [List.map_cons, List.foldl_cons, List.foldl_cons, ← ih, (show Monotone fl from fun _ _ h => fl_mono h).map_max]

theorem exact_peak (t : Rat) (n : Nat) (l : Int) (chunks : List (List RRow)) :
    (curveOf t n l chunks).prec = peak (exBin · n) (steps t 0 0 (chunks.flatten.filter (fun r => decide (r.row.pl = l)))) := by
  funext b
  rw [curve_prec, points_steps, updatePrec, peak, List.filter_map, List.map_map]
  rfl

theorem fl_peak (t : Rat) (n : Nat) (l : Int) (chunks : List (List RRow))
    (hlen : (chunks.flatten.filter (fun r => decide (r.row.pl = l))).length ≤ 2 ^ 53) :
    (flCurveOf t n l chunks).prec =
      fun b => fl (peak (flBin · n) (steps t 0 0 (chunks.flatten.filter (fun r => decide (r.row.pl = l)))) b) := by
  funext b
  rw [flCurve_prec, flPoints_steps, updatePrec, peak, ← foldl_max_fl, fl_zero, List.filter_map, List.map_map, List.map_map]
  congr 1
  apply List.map_congr_left
  intro s hs
  have hb := steps_bound t _ 0 0 le_rfl s (List.mem_filter.1 hs).1
  simp only [Function.comp]
  unfold flRatio flDiv
  rw [if_pos hb.2.1, fl_double (double_nat (by omega)), fl_double (double_nat (by omega))]

theorem peak_ge {bin : Nat → Nat} {ss : List (Nat × Nat × Rat)} {s : Nat × Nat × Rat} (h : s ∈ ss) :
    (s.1 : Rat) / (s.2.1 : Rat) ≤ peak bin ss (bin s.1) := by
  unfold peak
  apply (foldl_max_ge _ _).2
  exact List.mem_map.2 ⟨s, List.mem_filter.2 ⟨h, by simp⟩, rfl⟩

theorem peak_mem (bin : Nat → Nat) (ss : List (Nat × Nat × Rat)) (b : Nat) :
    peak bin ss b = 0 ∨ ∃ s ∈ ss, bin s.1 = b ∧ peak bin ss b = (s.1 : Rat) / (s.2.1 : Rat) := by
  unfold peak
  rcases foldl_max_mem ((ss.filter (fun s => decide (bin s.1 = b))).map (fun s => (s.1 : Rat) / (s.2.1 : Rat))) 0 with h | h
  · exact Or.inl h
  · right
    obtain ⟨s, hs, e⟩ := List.mem_map.1 h
    rw [List.mem_filter, decide_eq_true_eq] at hs
    exact ⟨s, hs.1, hs.2, e.symm⟩

/-- Level `j` of the sweep over the peaks. -/
def level (bin : Nat → Nat) (ss : List (Nat × Nat × Rat)) (j : Nat) : Rat := (sweep (peak bin ss) 101 0).1.getD j 0

theorem level_spec (bin : Nat → Nat) (ss : List (Nat × Nat × Rat)) {j : Nat} (hj : j < 101) (hb : ∀ s ∈ ss, bin s.1 < 101) :
    0 ≤ level bin ss j ∧ (∀ s ∈ ss, j ≤ bin s.1 → (s.1 : Rat) / (s.2.1 : Rat) ≤ level bin ss j) ∧
    (level bin ss j = 0 ∨ ∃ s ∈ ss, j ≤ bin s.1 ∧ level bin ss j = (s.1 : Rat) / (s.2.1 : Rat)) := by
  obtain ⟨h1, _, h3⟩ := sweep_spec (peak bin ss) 101 0
  unfold level
  generalize sweep (peak bin ss) 101 0 = S at *
  obtain ⟨⟨g1, g2⟩, g3⟩ := h3 j (by omega)
  rw [List.getD_eq_getElem _ _ (by omega)]
  refine ⟨g1, fun s hs hjs => le_trans (peak_ge hs) (g2 _ hjs (hb s hs)), ?_⟩
  rcases g3 with g3 | ⟨b, b1, b2, b3⟩
  · exact Or.inl g3
  · rw [b3]
    rcases peak_mem bin ss b with h | ⟨s, hs, e1, e2⟩
    · exact Or.inl h
    · exact Or.inr ⟨s, hs, by omega, e2⟩

/-- More steps reach the level: the level is not lower. -/
theorem level_le {bin bin' : Nat → Nat} {ss : List (Nat × Nat × Rat)} {j j' : Nat} (hj : j < 101) (hj' : j' < 101)
    (hb : ∀ s ∈ ss, bin s.1 < 101) (hb' : ∀ s ∈ ss, bin' s.1 < 101) (h : ∀ s ∈ ss, j ≤ bin s.1 → j' ≤ bin' s.1) :
    level bin ss j ≤ level bin' ss j' := by
  obtain ⟨_, _, h3⟩ := level_spec bin ss hj hb
  obtain ⟨g1, g2, _⟩ := level_spec bin' ss hj' hb'
  rcases h3 with h3 | ⟨s, hs, h3, h4⟩
  · rw [h3]; exact g1
  · rw [h4]; exact g2 s hs (h s hs h3)

theorem sum_levels (bin : Nat → Nat) (ss : List (Nat × Nat × Rat)) :
    averagePrecision (peak bin ss) = (∑ j ∈ Finset.range 101, level bin ss j) / 101 := by
  obtain ⟨h1, h2, _⟩ := sweep_spec (peak bin ss) 101 0
  unfold averagePrecision level
  rw [h2]
  generalize sweep (peak bin ss) 101 0 = S at *
  obtain ⟨l, x⟩ := S
  dsimp only at *
  have e : l.sum = ∑ j ∈ Finset.range l.length, l.getD j 0 := by
    rw [← Fin.sum_univ_getElem l, Finset.sum_range]
    apply Finset.sum_congr rfl
    intro i _
    rw [List.getD_eq_getElem _ _ i.2]
  rw [e, h1]

attribute [local irreducible] level

theorem bins {c n : Nat} (hc : c ≤ n) (hb : n ≤ 2 ^ 44) :
    exBin c n ≤ 100 ∧ (flBin c n = exBin c n ∨ (flBin c n + 1 = exBin c n ∧ LowLevel (exBin c n) ∧ 50 ∣ n)) := by
  refine ⟨bin_le hc, ?_⟩
  rcases Nat.eq_zero_or_pos n with rfl | hn
  · left
    unfold flBin exBin flRatio recall
    simp [fl_zero]
  · have h := C77_bin hn hc hb
    have hn0 : (0 : Rat) < n := by exact_mod_cast hn
    have he : (exBin c n : Int) = ⌊(100 * c : Rat) / n⌋ := by
      unfold exBin recall
      rw [if_pos hn, Int.toNat_of_nonneg (Int.floor_nonneg.2 (by positivity))]
      congr 1
      ring
    rw [← he] at h
    split at h
    · rename_i hl
      right
      have hk : ∀ k : Nat, 100 * c = k * n → exBin c n = k := by
        intro k hk
        have : (100 * c : Rat) / n = ((k : Int) : Rat) := by
          rw [div_eq_iff hn0.ne']
          push_cast
          exact_mod_cast hk
        rw [this, Int.floor_intCast] at he
        exact_mod_cast he
      refine ⟨by omega, ?_, by omega⟩
      rcases hl with hl | hl | hl
      · exact Or.inl (hk _ hl)
      · exact Or.inr (Or.inl (hk _ hl))
      · exact Or.inr (Or.inr (hk _ hl))
    · left
      omega

theorem level_unit {bin : Nat → Nat} {ss : List (Nat × Nat × Rat)} {j : Nat} (hj : j < 101) (hb : ∀ s ∈ ss, bin s.1 < 101)
    (h : ∀ s ∈ ss, s.1 ≤ s.2.1) : 0 ≤ level bin ss j ∧ level bin ss j ≤ 1 := by
  obtain ⟨g1, _, g3⟩ := level_spec bin ss hj hb
  refine ⟨g1, ?_⟩
  rcases g3 with g3 | ⟨s, hs, _, g3⟩
  · rw [g3]; exact zero_le_one
  · rw [g3]
    apply div_le_one_of_le₀ _ (by positivity)
    exact_mod_cast h s hs

theorem peak_unit {bin : Nat → Nat} {ss : List (Nat × Nat × Rat)} (h : ∀ s ∈ ss, s.1 ≤ s.2.1) (b : Nat) :
    0 ≤ peak bin ss b ∧ peak bin ss b ≤ 1 := by
  refine ⟨(foldl_max_ge _ _).1, ?_⟩
  rcases peak_mem bin ss b with g | ⟨s, hs, _, g⟩
  · rw [g]; exact zero_le_one
  · rw [g]
    apply div_le_one_of_le₀ _ (by positivity)
    exact_mod_cast h s hs

/-- The double bins lower the mean by at most 1/101, and not at all unless 50 divides the number of ground truths. -/
theorem levels_loss {n : Nat} {ss : List (Nat × Nat × Rat)} (hb : n ≤ 2 ^ 44) (hn : ∀ s ∈ ss, s.1 ≤ n) (hs : ∀ s ∈ ss, s.1 ≤ s.2.1) :
    averagePrecision (peak (flBin · n) ss) ≤ averagePrecision (peak (exBin · n) ss) ∧
    averagePrecision (peak (exBin · n) ss) ≤ averagePrecision (peak (flBin · n) ss) + 1 / 101 ∧
    (¬ 50 ∣ n → averagePrecision (peak (flBin · n) ss) = averagePrecision (peak (exBin · n) ss)) := by
  have he : ∀ s ∈ ss, exBin s.1 n < 101 := fun s h => by have := (bins (hn s h) hb).1; omega
  have hf : ∀ s ∈ ss, flBin s.1 n < 101 := fun s h => by have := bins (hn s h) hb; omega
  have hle : ∀ j, j < 101 → level (flBin · n) ss j ≤ level (exBin · n) ss j := fun j hj =>
    level_le hj hj hf he (fun s h hjs => by
      have := bins (hn s h) hb
      omega)
  have heq : ∀ j, j < 101 → ¬ (LowLevel j ∧ 50 ∣ n) → level (flBin · n) ss j = level (exBin · n) ss j := fun j hj hl =>
    le_antisymm (hle j hj) (level_le hj hj he hf (fun s h hjs => by
      rcases (bins (hn s h) hb).2 with g | ⟨g1, g2, g3⟩
      · omega
      · by_cases e : exBin s.1 n = j
        · rw [e] at g2
          exact absurd ⟨g2, g3⟩ hl
        · omega))
  have hnext : ∀ j, j < 100 → level (exBin · n) ss (j + 1) ≤ level (flBin · n) ss j := fun j hj =>
    level_le (by omega) (by omega) he hf (fun s h hjs => by
      have := bins (hn s h) hb
      omega)
  have hanti : ∀ j, j < 100 → level (exBin · n) ss (j + 1) ≤ level (exBin · n) ss j := fun j hj =>
    level_le (by omega) (by omega) he he (fun s h hjs => by omega)
  rw [sum_levels, sum_levels]
  refine ⟨?_, ?_, ?_⟩
  · apply div_le_div_of_nonneg_right _ (by norm_num)
    exact Finset.sum_le_sum (fun j hj => hle j (Finset.mem_range.1 hj))
  · rw [← add_div]
    apply div_le_div_of_nonneg_right _ (by norm_num)
    have hsum : ∑ j ∈ Finset.range 101, level (exBin · n) ss j ≤ ∑ j ∈ Finset.range 101, (level (flBin · n) ss j +
        ((if j = 29 then level (exBin · n) ss 29 - level (flBin · n) ss 29 else 0) +
        (if j = 57 then level (exBin · n) ss 57 - level (flBin · n) ss 57 else 0) +
        (if j = 58 then level (exBin · n) ss 58 - level (flBin · n) ss 58 else 0))) := by
      apply Finset.sum_le_sum
      intro j hj
      rw [Finset.mem_range] at hj
      by_cases h1 : j = 29
      · subst h1; simp
      by_cases h2 : j = 57
      · subst h2; simp
      by_cases h3 : j = 58
      · subst h3; simp
      rw [if_neg h1, if_neg h2, if_neg h3, heq j hj (by rintro ⟨h | h | h, _⟩ <;> omega)]
      simp
    rw [Finset.sum_add_distrib, Finset.sum_add_distrib, Finset.sum_add_distrib, Finset.sum_ite_eq', Finset.sum_ite_eq',
      Finset.sum_ite_eq', if_pos (by simp), if_pos (by simp), if_pos (by simp)] at hsum
    have a1 := hnext 29 (by omega)
    have a2 := hnext 57 (by omega)
    have a3 := hnext 58 (by omega)
    have c1 := (level_unit (bin := (exBin · n)) (j := 29) (by omega) he hs).2
    have c2 := (level_unit (bin := (exBin · n)) (j := 59) (by omega) he hs).1
    have c3 : level (exBin · n) ss 57 ≤ level (exBin · n) ss 30 :=
      level_le (by omega) (by omega) he he (fun s h hjs => by omega)
    linarith
  · intro h50
    congr 1
    exact Finset.sum_congr rfl (fun j hj => heq j (Finset.mem_range.1 hj) (fun h => h50 h.2))

/-- **C77 (average precision).** Take the interpolated precisions of the ranked decisions of a label at the recalls `0, 1/100, …, 1`.
For up to `2 ^ 44` ground truths and `2 ^ 53` predictions, the average precision computed with doubles is at most their mean plus
`2 ^ -44`, and at least their mean minus `2 ^ -44`, or minus 1/101 more when the number of ground truths is a multiple of 50. -/
theorem C77_average_precision_partial (t : Rat) (n : Nat) (l : Int) (chunks : List (List RRow)) (ds : List Bool) (vs : List Rat)
    (hds : ds = (chunks.flatten.filter (fun r => decide (r.row.pl = l))).map (tpOuter t)) (hn : ds.count true ≤ n) (hb : n ≤ 2 ^ 44)
    (hd : ds.length ≤ 2 ^ 53) (hv : vs.length = 101) (hi : ∀ (j : Nat) (h : j < vs.length), Interpolated n ds j vs[j]) :
    flAp (flCurveOf t n l chunks).prec ≤ vs.sum / 101 + 1 / 2 ^ 44 ∧
    vs.sum / 101 ≤ flAp (flCurveOf t n l chunks).prec + 1 / 101 + 1 / 2 ^ 44 ∧
    (¬ 50 ∣ n → |flAp (flCurveOf t n l chunks).prec - vs.sum / 101| ≤ 1 / 2 ^ 44) := by
  obtain ⟨i1, i2, i3⟩ := C29_interpolation t n l chunks ds hds hn
  have hvs : vs = interpolated (curveOf t n l chunks).prec :=
    List.ext_getElem (by rw [hv, i1]) (fun j h1 h2 => interpolated_unique (hi j h1) (i2 j h2))
  rw [hvs, ← i3, exact_peak, fl_peak t n l chunks (by rw [hds, List.length_map] at hd; exact hd)]
  have hsb := steps_bound t (chunks.flatten.filter (fun r => decide (r.row.pl = l))) 0 0 le_rfl
  rw [← hds] at hsb
  generalize steps t 0 0 (chunks.flatten.filter (fun r => decide (r.row.pl = l))) = ss at *
  obtain ⟨l1, l2, l3⟩ := levels_loss (n := n) (ss := ss) hb (fun s h => by have := hsb s h; omega) (fun s h => (hsb s h).1)
  have herr := C72_ap_error (c := peak (flBin · n) ss) (fun j _ => peak_unit (fun s h => (hsb s h).1) j)
  refine ⟨?_, ?_, ?_⟩
  · have := (abs_le.1 herr).2
    linarith
  · have := (abs_le.1 herr).1
    linarith
  · intro h
    rw [← l3 h]
    exact herr

/-- `m` correct predictions of the label 0, in one table. -/
def found (m : Nat) : List (List RRow) := [(List.range m).map fun (i : Nat) => ⟨⟨0, i, i, 0, 0, 9 / 10, 9 / 10⟩, 0⟩]

/-- **C77 (violation).** 29 of 50 objects are found and nothing else is predicted. The interpolated precision is 1 at the recalls 0 to
0.58, so the average precision is 59/101. The doubles put the recall 29/50 into bin 57 and report 58/101, rounded. -/
theorem C77_violation : averagePrecision (curveOf (1 / 2) 50 0 (found 29)).prec = 59 / 101 ∧
    flAp (flCurveOf (1 / 2) 50 0 (found 29)).prec = fl (58 / 101) ∧ flBin 29 50 = 57 ∧ fl (58 / 101) + 1 / 102 < 59 / 101 := by
  refine ⟨?_, ?_, ?_, ?_⟩ <;> decide +kernel

/-- Hypotheses of `C77_average_precision_partial`. -/
example : ∃ vs : List Rat, vs.length = 101 ∧ (∀ (j : Nat) (h : j < vs.length), Interpolated 50 (List.replicate 29 true) j vs[j]) ∧
    List.replicate 29 true = ((found 29).flatten.filter (fun r => decide (r.row.pl = 0))).map (tpOuter (1 / 2)) ∧
    (List.replicate 29 true).count true ≤ 50 := by
  have hd : List.replicate 29 true = ((found 29).flatten.filter (fun r => decide (r.row.pl = 0))).map (tpOuter (1 / 2)) := by
    decide +kernel
  obtain ⟨h1, h2, _⟩ := C29_interpolation (1 / 2) 50 0 (found 29) _ hd (by decide)
  exact ⟨_, h1, h2, hd, by decide⟩

/-- Hypotheses of `C77_bin`, at a recall that is no multiple of 1/100. -/
example : flBin 2 3 = 66 ∧ flBin 58 100 = 57 ∧ flBin 56 100 = 56 := by decide +kernel

end Verif.Float
