import Verif.Shared.Rounding
import Mathlib.Algebra.BigOperators.Group.List.Basic
import Mathlib.Algebra.Order.BigOperators.Group.List
import Mathlib.Algebra.Order.Ring.Pow
import Mathlib.Data.List.Perm.Basic

/-!
# Sums in double precision

`ndarray.sum`, `ndarray.mean` and `np.trapezoid` add in an order that depends on the length, the axis and the version of the
library. `Sums xs s` says that `s` is a result of adding the elements of `xs` in some order, rounding after each addition. The
order that NumPy uses for one contiguous axis is `npSum`.
-/

namespace Verif.Float

open Verif.Shared

/-- `s` is a result of adding `xs` in double precision, in some order and with any number of additions of zero. -/
inductive Sums : List Rat → Rat → Prop
  | nil : Sums [] 0
  | one (x : Rat) : Sums [x] x
  | add {xs ys : List Rat} {s t : Rat} : Sums xs s → Sums ys t → Sums (xs ++ ys) (fl (s + t))
  | perm {xs ys : List Rat} {s : Rat} : xs.Perm ys → Sums xs s → Sums ys s

/-- Adding from left to right onto `start`: `+=` in a loop (`object_detection/computation.py` 584-604), Python's `sum` up to
version 3.11. -/
def seqSum (start : Rat) (xs : List Rat) : Rat := xs.foldl (fun (a : Rat) (x : Rat) => fl (a + x)) start

/-- The eight accumulators of NumPy's `pairwise_sum`, combined. -/
def combine (r : List Rat) : Rat :=
  fl (fl (fl (r.getD 0 0 + r.getD 1 0) + fl (r.getD 2 0 + r.getD 3 0))
    + fl (fl (r.getD 4 0 + r.getD 5 0) + fl (r.getD 6 0 + r.getD 7 0)))

/-- The loop of NumPy's `pairwise_sum` over blocks of eight; the first argument bounds the number of steps. -/
def lanes : Nat → List Rat → List Rat → Rat
  | 0, r, rest => seqSum (combine r) rest
  | n + 1, r, rest =>
    if 8 ≤ rest.length then lanes n (List.zipWith (fun (a : Rat) (b : Rat) => fl (a + b)) r (rest.take 8)) (rest.drop 8)
    else seqSum (combine r) rest

/-- NumPy's `pairwise_sum` on at most 128 elements. -/
def npBlock (xs : List Rat) : Rat :=
  if xs.length < 8 then seqSum 0 xs else lanes xs.length (xs.take 8) (xs.drop 8)

/-- NumPy's `pairwise_sum`: halves, rounded down to a multiple of eight. The first argument bounds the depth. (Not code of the
repository: the order behind `ndarray.sum` on one contiguous axis.) -/
def npSumN : Nat → List Rat → Rat
  | 0, xs => npBlock xs
  | n + 1, xs =>
    if xs.length ≤ 128 then npBlock xs
    else
      let h := xs.length / 2 - xs.length / 2 % 8
      fl (npSumN n (xs.take h) + npSumN n (xs.drop h))

/-- `ndarray.sum()` of a one-dimensional array. -/
def npSum (xs : List Rat) : Rat := npSumN xs.length xs

theorem seqSum_sums {xs : List Rat} : ∀ {ys : List Rat} {s : Rat}, Sums xs s → Sums (xs ++ ys) (seqSum s ys) := by
  intro ys
  induction ys generalizing xs with
  | nil => intro s h; simpa [seqSum] using h
  | cons y ys ih =>
    intro s h
    have := ih (Sums.add h (Sums.one y))
    simpa [seqSum, List.append_assoc] using this

/-- The accumulators after some blocks: lane by lane the elements added so far. -/
def Lanes (Ls : List (List Rat)) (r : List Rat) : Prop := List.Forall₂ Sums Ls r

theorem combine_sums {Ls : List (List Rat)} {r : List Rat} (h : Lanes Ls r) (hl : r.length = 8) :
    Sums Ls.flatten (combine r) := by
  match r, hl with
  | [r0, r1, r2, r3, r4, r5, r6, r7], _ =>
    cases h with | cons h0 h =>
    cases h with | cons h1 h =>
    cases h with | cons h2 h =>
    cases h with | cons h3 h =>
    cases h with | cons h4 h =>
    cases h with | cons h5 h =>
    cases h with | cons h6 h =>
    cases h with | cons h7 h =>
    cases h
    have := Sums.add (Sums.add (Sums.add h0 h1) (Sums.add h2 h3)) (Sums.add (Sums.add h4 h5) (Sums.add h6 h7))
    simpa [combine, List.append_assoc] using this

theorem lanes_step : ∀ {Ls : List (List Rat)} {r b : List Rat}, Lanes Ls r → r.length = b.length →
    ∃ Ls', Lanes Ls' (List.zipWith (fun (a : Rat) (b : Rat) => fl (a + b)) r b) ∧ Ls'.flatten.Perm (Ls.flatten ++ b) := by
  intro Ls r b h
  induction h generalizing b with
  | nil => intro hb; cases b with
    | nil => exact ⟨[], List.Forall₂.nil, List.Perm.refl _⟩
    | cons _ _ => simp at hb
  | @cons L x Ls r hx _ ih =>
    intro hb
    cases b with
    | nil => simp at hb
    | cons y b =>
      obtain ⟨Ls', h1, h2⟩ := ih (b := b) (by simpa using hb)
      refine ⟨(L ++ [y]) :: Ls', List.Forall₂.cons (Sums.add hx (Sums.one y)) h1, ?_⟩
      simp only [List.flatten_cons, List.append_assoc]
      refine List.Perm.append_left L ?_
      refine ((List.Perm.append_left [y] h2)).trans ?_
      rw [← List.append_assoc]
      refine (List.Perm.append_right b List.perm_append_comm).trans ?_
      simp

theorem lanes_sums : ∀ (n : Nat) {Ls : List (List Rat)} {r rest : List Rat}, Lanes Ls r → r.length = 8 →
    Sums (Ls.flatten ++ rest) (lanes n r rest) := by
  intro n
  induction n with
  | zero => intro Ls r rest h hl; exact seqSum_sums (combine_sums h hl)
  | succ n ih =>
    intro Ls r rest h hl
    unfold lanes
    split
    · rename_i h8
      obtain ⟨Ls', h1, h2⟩ := lanes_step (b := rest.take 8) h (by rw [hl, List.length_take]; omega)
      have := ih (rest := rest.drop 8) h1 (by rw [List.length_zipWith, hl, List.length_take]; omega)
      refine Sums.perm ?_ this
      refine (List.Perm.append_right _ h2).trans ?_
      rw [List.append_assoc, List.take_append_drop]
    · exact seqSum_sums (combine_sums h hl)

theorem lanes_init : ∀ (r : List Rat), Lanes (r.map (fun x => [x])) r ∧ (r.map (fun x : Rat => [x])).flatten = r
  | [] => ⟨List.Forall₂.nil, rfl⟩
  | x :: r => ⟨List.Forall₂.cons (Sums.one x) (lanes_init r).1, by
      rw [List.map_cons, List.flatten_cons, (lanes_init r).2]; rfl⟩

theorem npBlock_sums (xs : List Rat) : Sums xs (npBlock xs) := by
  unfold npBlock
  split
  · simpa using seqSum_sums (ys := xs) Sums.nil
  · rename_i h
    have := lanes_sums xs.length (rest := xs.drop 8) (lanes_init (xs.take 8)).1 (by rw [List.length_take]; omega)
    rwa [(lanes_init (xs.take 8)).2, List.take_append_drop] at this

/-- NumPy's order is an order. -/
theorem npSum_sums (xs : List Rat) : Sums xs (npSum xs) := by
  unfold npSum
  generalize xs.length = n
  induction n generalizing xs with
  | zero => exact npBlock_sums xs
  | succ n ih =>
    unfold npSumN
    split
    · exact npBlock_sums xs
    · dsimp only
      have := Sums.add (ih (xs.take (xs.length / 2 - xs.length / 2 % 8))) (ih (xs.drop (xs.length / 2 - xs.length / 2 % 8)))
      rwa [List.take_append_drop] at this

/-- A sum of doubles is a double. -/
theorem Sums.double {xs : List Rat} {s : Rat} (h : Sums xs s) : (∀ x ∈ xs, IsDouble x) → IsDouble s := by
  induction h with
  | nil => intro _; exact double_zero
  | one x => intro h; exact h x (by simp)
  | add _ _ _ _ => intro _; exact double_fl _
  | perm p _ ih => intro h; exact ih (fun x hx => h x (p.mem_iff.1 hx))

/-- A sum of numbers of the unit interval is at least zero and at most their number. -/
theorem Sums.range {xs : List Rat} {s : Rat} (h : Sums xs s) : (∀ x ∈ xs, 0 ≤ x ∧ x ≤ 1) → xs.length ≤ 2 ^ 53 →
    0 ≤ s ∧ s ≤ xs.length := by
  induction h with
  | nil => intro _ _; simp
  | one x => intro h _; simpa using h x (by simp)
  | @add xs ys s t _ _ ih1 ih2 =>
    intro h hl
    rw [List.length_append] at hl
    obtain ⟨a1, a2⟩ := ih1 (fun x hx => h x (List.mem_append_left _ hx)) (by omega)
    obtain ⟨b1, b2⟩ := ih2 (fun x hx => h x (List.mem_append_right _ hx)) (by omega)
    refine ⟨fl_nonneg (by linarith), ?_⟩
    apply fl_le (double_nat (by rw [List.length_append]; exact hl))
    rw [List.length_append]
    push_cast
    linarith
  | @perm xs ys s p _ ih =>
    intro h hl
    rw [← p.length_eq] at hl ⊢
    exact ih (fun x hx => h x (p.mem_iff.1 hx)) hl

theorem sum_nat {xs : List Rat} (h : ∀ x ∈ xs, ∃ n : Nat, x = n) : ∃ n : Nat, xs.sum = n := by
  induction xs with
  | nil => exact ⟨0, by simp⟩
  | cons x xs ih =>
    obtain ⟨a, ha⟩ := h x (by simp)
    obtain ⟨b, hb⟩ := ih (fun y hy => h y (List.mem_cons_of_mem _ hy))
    exact ⟨a + b, by rw [List.sum_cons, ha, hb]; push_cast; rfl⟩

/-- A sum of integers is exact as long as it is at most `2 ^ 53`. -/
theorem Sums.nat {xs : List Rat} {s : Rat} (h : Sums xs s) : (∀ x ∈ xs, ∃ n : Nat, x = n) → xs.sum ≤ 2 ^ 53 → s = xs.sum := by
  induction h with
  | nil => intro _ _; simp
  | one x => intro _ _; simp
  | @add xs ys s t _ _ ih1 ih2 =>
    intro h hl
    obtain ⟨a, ha⟩ := sum_nat (fun x hx => h x (List.mem_append_left ys hx))
    obtain ⟨b, hb⟩ := sum_nat (fun x hx => h x (List.mem_append_right xs hx))
    rw [List.sum_append, ha, hb] at hl ⊢
    have a0 : (0 : Rat) ≤ a := Nat.cast_nonneg a
    have b0 : (0 : Rat) ≤ b := Nat.cast_nonneg b
    rw [ih1 (fun x hx => h x (List.mem_append_left ys hx)) (by rw [ha]; linarith),
      ih2 (fun x hx => h x (List.mem_append_right xs hx)) (by rw [hb]; linarith), ha, hb, ← Nat.cast_add]
    refine fl_double (double_nat ?_)
    exact_mod_cast hl
  | @perm xs ys s p _ ih =>
    intro h hl
    rw [← p.sum_eq] at hl ⊢
    exact ih (fun x hx => h x (p.mem_iff.1 hx)) hl

/-- The sum of nonnegative doubles has a small relative error, whatever the order. -/
theorem Sums.error {xs : List Rat} {s : Rat} (h : Sums xs s) : (∀ x ∈ xs, IsDouble x ∧ 0 ≤ x) →
    (1 - 1 / 2 ^ 53) ^ (xs.length - 1) * xs.sum ≤ s ∧ s ≤ (1 + 1 / 2 ^ 53) ^ (xs.length - 1) * xs.sum := by
  have u0 : (0 : Rat) < 1 / 2 ^ 53 := by positivity
  have u1 : (1 : Rat) / 2 ^ 53 ≤ 1 := by norm_num
  generalize hu : (1 : Rat) / 2 ^ 53 = u at *
  induction h with
  | nil => intro _; simp
  | one x => intro _; simp
  | @add xs ys s t hs ht ih1 ih2 =>
    intro h
    have hx : ∀ x ∈ xs, IsDouble x ∧ 0 ≤ x := fun x hx => h x (List.mem_append_left _ hx)
    have hy : ∀ x ∈ ys, IsDouble x ∧ 0 ≤ x := fun x hx => h x (List.mem_append_right _ hx)
    obtain ⟨a1, a2⟩ := ih1 hx
    obtain ⟨b1, b2⟩ := ih2 hy
    have ds := hs.double (fun x hx' => (hx x hx').1)
    have dt := ht.double (fun x hx' => (hy x hx').1)
    have sx : 0 ≤ xs.sum := List.sum_nonneg (fun x hx' => (hx x hx').2)
    have sy : 0 ≤ ys.sum := List.sum_nonneg (fun x hx' => (hy x hx').2)
    by_cases hxe : xs = []
    · subst hxe
      have : s = 0 := by simp at a1 a2; linarith
      rw [this, zero_add, fl_double dt]
      simpa using ⟨b1, b2⟩
    by_cases hye : ys = []
    · subst hye
      have : t = 0 := by simp at b1 b2; linarith
      rw [this, add_zero, fl_double ds]
      simpa using ⟨a1, a2⟩
    have lx : 0 < xs.length := List.length_pos_iff.2 hxe
    have ly : 0 < ys.length := List.length_pos_iff.2 hye
    have s0 : 0 ≤ s := le_trans (mul_nonneg (pow_nonneg (by linarith) _) sx) a1
    have t0 : 0 ≤ t := le_trans (mul_nonneg (pow_nonneg (by linarith) _) sy) b1
    have he := fl_add_error ds dt (by linarith)
    rw [div_eq_mul_one_div, hu, abs_le] at he
    rw [List.length_append, List.sum_append]
    constructor
    · have p1 : (1 - u) ^ (xs.length + ys.length - 2) ≤ (1 - u) ^ (xs.length - 1) :=
        pow_le_pow_of_le_one (by linarith) (by linarith) (by omega)
      have p2 : (1 - u) ^ (xs.length + ys.length - 2) ≤ (1 - u) ^ (ys.length - 1) :=
        pow_le_pow_of_le_one (by linarith) (by linarith) (by omega)
      have c1 := mul_le_mul_of_nonneg_right p1 sx
      have c2 := mul_le_mul_of_nonneg_right p2 sy
      have e : xs.length + ys.length - 1 = (xs.length + ys.length - 2) + 1 := by omega
      rw [e, pow_succ]
      have c3 : (1 - u) ^ (xs.length + ys.length - 2) * (xs.sum + ys.sum) ≤ s + t := by linarith
      have c4 := mul_le_mul_of_nonneg_left c3 (show (0 : Rat) ≤ 1 - u by linarith)
      have e2 : (1 - u) ^ (xs.length + ys.length - 2) * (1 - u) * (xs.sum + ys.sum)
        = (1 - u) * ((1 - u) ^ (xs.length + ys.length - 2) * (xs.sum + ys.sum)) := by ring
      rw [e2]
      linarith [he.1]
    · have p1 : (1 + u) ^ (xs.length - 1) ≤ (1 + u) ^ (xs.length + ys.length - 2) :=
        pow_le_pow_right₀ (by linarith) (by omega)
      have p2 : (1 + u) ^ (ys.length - 1) ≤ (1 + u) ^ (xs.length + ys.length - 2) :=
        pow_le_pow_right₀ (by linarith) (by omega)
      have c1 := mul_le_mul_of_nonneg_right p1 sx
      have c2 := mul_le_mul_of_nonneg_right p2 sy
      have e : xs.length + ys.length - 1 = (xs.length + ys.length - 2) + 1 := by omega
      rw [e, pow_succ]
      have c3 : s + t ≤ (1 + u) ^ (xs.length + ys.length - 2) * (xs.sum + ys.sum) := by linarith
      have c4 := mul_le_mul_of_nonneg_left c3 (show (0 : Rat) ≤ 1 + u by linarith)
      have e2 : (1 + u) ^ (xs.length + ys.length - 2) * (1 + u) * (xs.sum + ys.sum)
        = (1 + u) * ((1 + u) ^ (xs.length + ys.length - 2) * (xs.sum + ys.sum)) := by ring
      rw [e2]
      linarith [he.2]
  | @perm xs ys s p _ ih =>
    intro h
    rw [← p.length_eq, ← p.sum_eq]
    exact ih (fun x hx => h x (p.mem_iff.1 hx))

/-- The accumulated error of `n` additions is at most `2 * n` roundings. -/
theorem pow_small {n : Nat} (hn : n ≤ 2 ^ 52) :
    (1 + 1 / 2 ^ 53 : Rat) ^ n ≤ 1 + 2 * n * (1 / 2 ^ 53) ∧ 1 - 2 * n * (1 / 2 ^ 53) ≤ (1 - 1 / 2 ^ 53 : Rat) ^ n := by
  have u0 : (0 : Rat) < 1 / 2 ^ 53 := by positivity
  have u1 : (1 : Rat) / 2 ^ 53 ≤ 1 := by norm_num
  have hn' : (n : Rat) * (1 / 2 ^ 53) ≤ 1 / 2 := by
    have : (n : Rat) ≤ 2 ^ 52 := by exact_mod_cast hn
    calc (n : Rat) * (1 / 2 ^ 53) ≤ 2 ^ 52 * (1 / 2 ^ 53) := mul_le_mul_of_nonneg_right this u0.le
      _ = 1 / 2 := by norm_num
  generalize (1 : Rat) / 2 ^ 53 = u at *
  have hb : 1 - n * u ≤ (1 - u) ^ n := by
    have := one_add_mul_le_pow (a := -u) (by linarith) n
    rw [← sub_eq_add_neg] at this
    linarith
  have nn : (0 : Rat) ≤ n * u := mul_nonneg (Nat.cast_nonneg n) u0.le
  refine ⟨?_, by linarith⟩
  have hprod : (1 + u) ^ n * (1 - u) ^ n ≤ 1 := by
    rw [← mul_pow]
    exact pow_le_one₀ (by nlinarith) (by nlinarith)
  have hpos : (0 : Rat) ≤ (1 + u) ^ n := pow_nonneg (by linarith) n
  have h1 : (1 + u) ^ n * (1 - n * u) ≤ 1 := le_trans (mul_le_mul_of_nonneg_left hb hpos) hprod
  by_contra hcon
  rw [not_le] at hcon
  have h2 : (1 + 2 * n * u) * (1 - n * u) < (1 + u) ^ n * (1 - n * u) := mul_lt_mul_of_pos_right hcon (by linarith)
  nlinarith

/-- Ten times 0.1: NumPy's order is not left to right. -/
example : npSum (List.replicate 10 (fl (1 / 10))) ≠ seqSum 0 (List.replicate 10 (fl (1 / 10))) := by decide +kernel

end Verif.Float
