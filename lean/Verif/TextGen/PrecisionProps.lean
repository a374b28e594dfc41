import Verif.TextGen.Model
import Mathlib.Tactic.Ring
import Mathlib.Tactic.Linarith
import Mathlib.Tactic.Positivity
import Mathlib.Tactic.FieldSimp
import Mathlib.Algebra.Order.Field.Basic
import Mathlib.Algebra.BigOperators.Group.List.Basic
import Mathlib.Data.Nat.Cast.Order.Field

/-!
# C43: context precision rewards relevant contexts that come first
-/

namespace Verif.TextGen

/-- The precisions at the relevant positions, after `k` contexts of which `c` were relevant. -/
def precs : Nat → Nat → List Bool → List Rat
  | _, _, [] => []
  | c, k, true :: bs => (((c + 1 : Nat) : Rat) / ((k + 1 : Nat) : Rat)) :: precs (c + 1) (k + 1) bs
  | c, k, false :: bs => precs c (k + 1) bs

theorem precisionAtK_aux (pre bs : List Bool) :
    (List.range' pre.length bs.length).filterMap (fun k =>
      if (pre ++ bs)[k]? = some true then some ((((pre ++ bs).take (k + 1)).count true : Rat) / ((k + 1 : Nat) : Rat))
      else none) = precs (pre.count true) pre.length bs := by
  induction bs generalizing pre with
  | nil => simp [precs]
  | cons b bs ih =>
    have hi := ih (pre ++ [b])
    simp only [List.length_append, List.length_singleton, List.append_assoc, List.singleton_append] at hi
    have ht : (pre ++ b :: bs).take (pre.length + 1) = pre ++ [b] := by
      rw [show pre ++ b :: bs = (pre ++ [b]) ++ bs by simp, List.take_left' (by simp)]
    rw [List.length_cons, List.range'_succ]
    cases b with
    | true =>
      rw [List.filterMap_cons_some (b := ((pre.count true + 1 : Nat) : Rat) / ((pre.length + 1 : Nat) : Rat))]
      · rw [hi]
        simp [precs, List.count_append]
      · simp only [List.getElem?_append_right (Nat.le_refl _), Nat.sub_self, List.getElem?_cons_zero, if_true, ht,
          List.count_append, List.count_singleton_self]
    | false =>
      rw [List.filterMap_cons_none]
      · rw [hi]
        simp [precs, List.count_append]
      · simp

theorem precisionAtK_eq (agg : List Bool) : precisionAtK agg = precs 0 0 agg := by
  have := precisionAtK_aux [] agg
  simpa [precisionAtK, List.range_eq_range'] using this

theorem precs_length (c k : Nat) (bs : List Bool) : (precs c k bs).length = bs.count true := by
  induction bs generalizing c k with
  | nil => rfl
  | cons b bs ih => cases b <;> simp [precs, ih]

theorem precs_append (c k : Nat) (a b : List Bool) :
    precs c k (a ++ b) = precs c k a ++ precs (c + a.count true) (k + a.length) b := by
  induction a generalizing c k with
  | nil => simp [precs]
  | cons x a ih =>
    cases x
    · simp only [List.cons_append, precs, ih, List.length_cons, ne_eq, Bool.false_eq_true, not_false_eq_true,
        List.count_cons_of_ne]
      rw [Nat.add_assoc, Nat.add_comm 1]
    · simp only [List.cons_append, precs, ih, List.length_cons, List.count_cons_self]
      rw [Nat.add_assoc, Nat.add_comm 1, Nat.add_assoc, Nat.add_comm 1]

theorem precs_bounds (c k : Nat) (h : c ≤ k) (bs : List Bool) : ∀ x ∈ precs c k bs, 0 < x ∧ x ≤ 1 := by
  induction bs generalizing c k with
  | nil => simp [precs]
  | cons b bs ih =>
    cases b with
    | false => exact ih c (k + 1) (by omega)
    | true =>
      simp only [precs, List.mem_cons, forall_eq_or_imp]
      refine ⟨⟨by positivity, ?_⟩, ih (c + 1) (k + 1) (by omega)⟩
      rw [div_le_one (by positivity)]
      exact_mod_cast (by omega : c + 1 ≤ k + 1)

theorem sum_bounds (xs : List Rat) (h : ∀ x ∈ xs, 0 < x ∧ x ≤ 1) : 0 ≤ xs.sum ∧ xs.sum ≤ xs.length := by
  induction xs with
  | nil => simp
  | cons x xs ih =>
    have h1 := h x (by simp)
    have h2 := ih (fun y hy => h y (by simp [hy]))
    simp only [List.sum_cons, List.length_cons, Nat.cast_add, Nat.cast_one]
    constructor <;> linarith [h1.1, h1.2, h2.1, h2.2]

theorem sum_pos' (xs : List Rat) (h : ∀ x ∈ xs, 0 < x ∧ x ≤ 1) (hne : xs ≠ []) : 0 < xs.sum := by
  cases xs with
  | nil => exact absurd rfl hne
  | cons x xs =>
    have h1 := h x (by simp)
    have h2 := sum_bounds xs (fun y hy => h y (by simp [hy]))
    simp only [List.sum_cons]
    linarith [h1.1, h2.1]

theorem sum_full (xs : List Rat) (h : ∀ x ∈ xs, 0 < x ∧ x ≤ 1) : xs.sum = xs.length ↔ ∀ x ∈ xs, x = 1 := by
  induction xs with
  | nil => simp
  | cons x xs ih =>
    have h1 := h x (by simp)
    have hr : ∀ y ∈ xs, 0 < y ∧ y ≤ 1 := fun y hy => h y (by simp [hy])
    have h2 := sum_bounds xs hr
    simp only [List.sum_cons, List.length_cons, Nat.cast_add, Nat.cast_one, List.mem_cons, forall_eq_or_imp, ← ih hr]
    constructor
    · intro h3
      constructor <;> linarith [h1.2, h2.2]
    · rintro ⟨h3, h4⟩
      linarith

theorem precs_late (c k : Nat) (h : c < k) (bs : List Bool) : (∀ x ∈ precs c k bs, x = 1) ↔ true ∉ bs := by
  induction bs generalizing c k with
  | nil => simp [precs]
  | cons b bs ih =>
    cases b with
    | false => simp [precs, ih c (k + 1) (by omega)]
    | true =>
      simp only [precs, List.mem_cons, forall_eq_or_imp, true_or, not_true_eq_false, iff_false, not_and]
      intro h1
      rw [div_eq_one_iff_eq (by positivity)] at h1
      have : c + 1 = k + 1 := by exact_mod_cast h1
      omega

theorem precs_all_one (k : Nat) (bs : List Bool) :
    (∀ x ∈ precs k k bs, x = 1) ↔ ∃ a b : Nat, bs = List.replicate a true ++ List.replicate b false := by
  induction bs generalizing k with
  | nil => simp only [precs, List.not_mem_nil, false_imp_iff, implies_true, true_iff]; exact ⟨0, 0, rfl⟩
  | cons x bs ih =>
    cases x with
    | true =>
      simp only [precs, List.mem_cons, forall_eq_or_imp]
      rw [div_self (by positivity), ih (k + 1)]
      constructor
      · rintro ⟨-, a, b, h⟩
        exact ⟨a + 1, b, by simp [h, List.replicate_succ]⟩
      · rintro ⟨a, b, h⟩
        refine ⟨rfl, ?_⟩
        cases a with
        | zero =>
          cases b with
          | zero => simp at h
          | succ b => simp [List.replicate_succ] at h
        | succ a => exact ⟨a, b, by simpa [List.replicate_succ] using h⟩
    | false =>
      simp only [precs]
      rw [precs_late k (k + 1) (by omega)]
      constructor
      · intro h
        refine ⟨0, bs.length + 1, ?_⟩
        simp only [List.replicate_zero, List.nil_append, List.replicate_succ, List.cons.injEq, true_and]
        rw [List.eq_replicate_iff]
        refine ⟨rfl, fun b hb => ?_⟩
        cases b with
        | false => rfl
        | true => exact absurd hb h
      · rintro ⟨a, b, h⟩
        cases a with
        | succ a => simp [List.replicate_succ] at h
        | zero =>
          intro hm
          have : true ∈ List.replicate 0 true ++ List.replicate b false := by rw [← h]; simp [hm]
          simp at this

theorem contextPrecision_eq (agg : List Bool) :
    contextPrecisionOf agg = if agg.count true = 0 then 0 else (precs 0 0 agg).sum / (agg.count true : Rat) := by
  rw [contextPrecisionOf, precisionAtK_eq, precs_length]

/-- C43: context precision lies in [0, 1]. -/
theorem C43_range (agg : List Bool) : 0 ≤ contextPrecisionOf agg ∧ contextPrecisionOf agg ≤ 1 := by
  rw [contextPrecision_eq]
  by_cases h : agg.count true = 0
  · simp [h]
  · rw [if_neg h]
    have hp : (0 : Rat) < agg.count true := by exact_mod_cast Nat.pos_of_ne_zero h
    have := sum_bounds _ (precs_bounds 0 0 (Nat.le_refl 0) agg)
    rw [precs_length] at this
    exact ⟨div_nonneg this.1 hp.le, (div_le_one hp).2 this.2⟩

/-- C43: it is 0 exactly if no context is relevant. -/
theorem C43_zero (agg : List Bool) : contextPrecisionOf agg = 0 ↔ true ∉ agg := by
  rw [contextPrecision_eq]
  by_cases h : agg.count true = 0
  · simp only [h, if_true, true_iff]
    exact List.count_eq_zero.1 h
  · rw [if_neg h]
    have hp : (0 : Rat) < agg.count true := by exact_mod_cast Nat.pos_of_ne_zero h
    have := sum_pos' _ (precs_bounds 0 0 (Nat.le_refl 0) agg) (by
      intro h2
      have := precs_length 0 0 agg
      rw [h2] at this
      exact h this.symm)
    constructor
    · intro h2
      exact absurd h2 (div_pos this hp).ne'
    · intro h2
      exact absurd (List.count_eq_zero.2 h2) h

/-- C43: it is 1 exactly if some context is relevant and the relevant ones come before all others. -/
theorem C43_one (agg : List Bool) :
    contextPrecisionOf agg = 1 ↔
      ∃ a b : Nat, agg = List.replicate (a + 1) true ++ List.replicate b false := by
  rw [contextPrecision_eq]
  by_cases h : agg.count true = 0
  · simp only [h, if_true, zero_ne_one, false_iff]
    rintro ⟨a, b, h2⟩
    rw [h2] at h
    simp at h
  · rw [if_neg h]
    have hp : (0 : Rat) < agg.count true := by exact_mod_cast Nat.pos_of_ne_zero h
    rw [div_eq_one_iff_eq hp.ne']
    have h1 := sum_full _ (precs_bounds 0 0 (Nat.le_refl 0) agg)
    rw [precs_length] at h1
    rw [h1, precs_all_one]
    constructor
    · rintro ⟨a, b, h2⟩
      cases a with
      | zero => exact absurd (by rw [h2, List.count_eq_zero]; simp) h
      | succ a => exact ⟨a, b, h2⟩
    · rintro ⟨a, b, h2⟩
      exact ⟨a + 1, b, h2⟩

/-- C43: moving a relevant context in front of the irrelevant one before it raises the score. -/
theorem C43_swap (a b : List Bool) :
    contextPrecisionOf (a ++ false :: true :: b) < contextPrecisionOf (a ++ true :: false :: b) := by
  have hc : (a ++ false :: true :: b).count true = (a ++ true :: false :: b).count true := by
    simp [List.count_append]
  rw [contextPrecision_eq, contextPrecision_eq, hc]
  have h : (a ++ true :: false :: b).count true ≠ 0 := by simp [List.count_append]
  rw [if_neg h, if_neg h]
  have hp : (0 : Rat) < (a ++ true :: false :: b).count true := by exact_mod_cast Nat.pos_of_ne_zero h
  apply div_lt_div_of_pos_right _ hp
  rw [precs_append, precs_append, List.sum_append, List.sum_append]
  simp only [precs, List.sum_cons]
  have hlt : ((0 + a.count true + 1 : Nat) : Rat) / ((0 + a.length + 1 + 1 : Nat) : Rat)
      < ((0 + a.count true + 1 : Nat) : Rat) / ((0 + a.length + 1 : Nat) : Rat) := by
    apply div_lt_div_of_pos_left (by positivity) (by positivity)
    exact_mod_cast Nat.lt_succ_self _
  linarith

/-- C43: the score is the mean, over the relevant contexts, of the share of relevant contexts up to there. -/
theorem C43_mean (agg : List Bool) (h : true ∈ agg) :
    contextPrecisionOf agg =
      (((List.range agg.length).filter (fun k => agg[k]? = some true)).map
        (fun k => ((agg.take (k + 1)).count true : Rat) / ((k : Rat) + 1))).sum / (agg.count true : Rat) := by
  have h0 : agg.count true ≠ 0 := fun h2 => List.count_eq_zero.1 h2 h
  rw [contextPrecision_eq, if_neg h0, ← precisionAtK_eq, precisionAtK]
  congr 2
  generalize List.range agg.length = ks
  induction ks with
  | nil => rfl
  | cons k ks ih =>
    by_cases hk : agg[k]? = some true
    · rw [List.filter_cons_of_pos (by simpa using hk), List.filterMap_cons_some (by rw [if_pos hk]), List.map_cons, ih]
      push_cast
      rfl
    · rw [List.filter_cons_of_neg (by simpa using hk), List.filterMap_cons_none (by rw [if_neg hk]), ih]

example : contextPrecisionOf [false, true, true] = 7 / 12 := by decide +kernel
example : contextPrecisionOf [true, true, false] = 1 := by decide +kernel

end Verif.TextGen
