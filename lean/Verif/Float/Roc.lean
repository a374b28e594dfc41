import Verif.Float.MetricsProps
import Verif.Classification.RocProps

/-!
# C74: ROCAUC in double precision

`compute_rocauc` adds trapezoids. In exact arithmetic the area is in the unit interval and a perfect ranking has area 1 (C21). In double
precision neither holds.
-/

namespace Verif.Float

open Verif.Shared Verif.Classification

/-- The summands of `np.trapezoid(y, x)`: `d * (y[1:] + y[:-1]) / 2.0` with `d = np.diff(x)` (`classification/numpy_compatibility.py`
10-13). -/
def flTrap : List (Rat × Rat) → List Rat
  | [] => []
  | [_] => []
  | a :: b :: rest => fl (fl (fl (b.1 - a.1) * fl (b.2 + a.2)) / 2) :: flTrap (b :: rest)

/-- The body of the label loop of `compute_rocauc` (`classification/computation.py` 54-88) for one label; `sum` is the order of
additions. -/
def flRocChunk (sum : List Rat → Rat) (l gt pd : Nat) (acc : Rat × Nat × Nat) (chunk : List RocRow) : Rat × Nat × Nat :=
  let pts := (chunk.filter (fun r => decide (r.label = l))).map (fun r => (r.fp, r.tp))
  if pd = 0 ∨ pts.length = 0 then acc
  else
    let pts := if acc.2.1 > 0 ∨ acc.2.2 > 0 then acc.2 :: pts else pts
    let prev := pts.getLastD (0, 0)
    if pts.length = 1 then (acc.1, prev)
    else
      (fl (acc.1 + sum (flTrap (pts.map (fun x => (flRatio x.1 (negCount pd gt), flRatio x.2 gt))))), prev)

/-- `Evaluator.compute_rocauc` (`classification/evaluator.py` 524-567), the area of label `l`. -/
def flRocauc (sum : List Rat → Rat) (frags : List (List Row)) (chunks : List (List RocRow)) (l : Nat) : Rat :=
  (chunks.foldl (flRocChunk sum l (gtCount frags l) (pdCount frags l)) (0, 0, 0)).1

/-! ## The summands -/

/-- The curve runs to the right, between the heights 0 and 1. -/
def Rising (pts : List (Rat × Rat)) : Prop :=
  (∀ a ∈ pts, IsDouble a.1 ∧ 0 ≤ a.2 ∧ a.2 ≤ 1) ∧ pts.Pairwise (fun a b => a.1 ≤ b.1)

theorem trap_length : ∀ (pts : List (Rat × Rat)), (flTrap pts).length = pts.length - 1
  | [] => rfl
  | [_] => rfl
  | _ :: b :: rest => by rw [flTrap, List.length_cons, trap_length (b :: rest)]; simp

theorem trap_terms : ∀ (a : Rat × Rat) (rest : List (Rat × Rat)), Rising (a :: rest) →
    (∀ t ∈ flTrap (a :: rest), IsDouble t ∧ 0 ≤ t) ∧
    (flTrap (a :: rest)).sum ≤ (1 + 1 / 2 ^ 53) * (((a :: rest).getLastD (0, 0)).1 - a.1) := by
  intro a rest
  induction rest generalizing a with
  | nil => intro _; simp [flTrap]
  | cons b rest ih =>
    intro h
    obtain ⟨h1, h2⟩ := h
    rw [List.pairwise_cons] at h2
    obtain ⟨ih1, ih2⟩ := ih b ⟨fun x hx => h1 x (List.mem_cons_of_mem _ hx), h2.2⟩
    have hab := h2.1 b (by simp)
    obtain ⟨da, a0, a1⟩ := h1 a (by simp)
    obtain ⟨db, b0, b1⟩ := h1 b (by simp)
    have d0 : 0 ≤ fl (b.1 - a.1) := fl_nonneg (by linarith)
    have y0 : 0 ≤ fl (b.2 + a.2) := fl_nonneg (by linarith)
    have y2 : fl (b.2 + a.2) ≤ 2 := fl_le (by simpa using double_nat (n := 2) (by norm_num)) (by linarith)
    have dd := double_fl (b.1 - a.1)
    have derr : fl (b.1 - a.1) ≤ (1 + 1 / 2 ^ 53) * (b.1 - a.1) := by
      have := fl_add_error db (double_neg da) (by linarith)
      rw [← sub_eq_add_neg, abs_le] at this
      have := this.2
      have e : (1 + 1 / 2 ^ 53) * (b.1 - a.1) = (b.1 - a.1) + (b.1 - a.1) / 2 ^ 53 := by ring
      rw [e]; linarith
    have t1 : fl (fl (fl (b.1 - a.1) * fl (b.2 + a.2)) / 2) ≤ fl (b.1 - a.1) := by
      have p : fl (fl (b.1 - a.1) * fl (b.2 + a.2)) ≤ 2 * fl (b.1 - a.1) := fl_le (double_two_mul dd) (by nlinarith)
      exact fl_le dd (by linarith)
    have t0 : 0 ≤ fl (fl (fl (b.1 - a.1) * fl (b.2 + a.2)) / 2) :=
      fl_nonneg (div_nonneg (fl_nonneg (mul_nonneg d0 y0)) (by norm_num))
    have e : (a :: b :: rest).getLastD (0, 0) = (b :: rest).getLastD (0, 0) := by
      simp [List.getLastD_eq_getLast?, List.getLast?_cons]
    rw [flTrap, e, List.sum_cons]
    refine ⟨?_, by linarith⟩
    intro t ht
    rcases List.mem_cons.1 ht with rfl | ht
    · exact ⟨double_fl _, t0⟩
    · exact ih1 t ht

theorem fl_error_two {z : Rat} (h0 : 0 ≤ z) (h1 : z ≤ 2) : |fl z - z| ≤ 1 / 2 ^ 53 := by
  have d2 : IsDouble 2 := by simpa using double_nat (n := 2) (by norm_num)
  rcases eq_or_lt_of_le h0 with h0 | h0
  · rw [← h0, fl_zero]; simp
  · rcases eq_or_lt_of_le h1 with h1 | h1
    · rw [h1, fl_double d2]; simp
    · refine le_trans (fl_error z) ?_
      have hl := log_lt (e := 1) h0 (by simpa using h1)
      have hb : lastBit z ≤ -52 := by
        unfold lastBit
        rw [abs_of_pos h0]
        omega
      have : (2 : Rat) ^ lastBit z ≤ 2 ^ (-52 : Int) := zpow_le_zpow_right₀ (by norm_num) hb
      have e : (2 : Rat) ^ (-52 : Int) / 2 = 1 / 2 ^ 53 := by rw [zpow_neg]; norm_num
      rw [← e]
      exact div_le_div_of_nonneg_right this (by norm_num)

/-- The error of one summand. -/
theorem term_error {x x' y y' X X' Y Y' : Rat} (hx : Unit01 x) (hx' : Unit01 x') (hy : Unit01 y) (hy' : Unit01 y') (hxx : x ≤ x')
    (hY : 0 ≤ Y ∧ Y ≤ 1) (hY' : 0 ≤ Y' ∧ Y' ≤ 1) (ex : |x - X| ≤ 1 / 2 ^ 54) (ex' : |x' - X'| ≤ 1 / 2 ^ 54)
    (ey : |y - Y| ≤ 1 / 2 ^ 54) (ey' : |y' - Y'| ≤ 1 / 2 ^ 54) :
    |fl (fl (fl (x' - x) * fl (y' + y)) / 2) - (X' - X) * (Y' + Y) / 2| ≤ 1 / 2 ^ 51 := by
  obtain ⟨_, x0, x1⟩ := hx
  obtain ⟨_, x0', x1'⟩ := hx'
  obtain ⟨_, y0, y1⟩ := hy
  obtain ⟨_, y0', y1'⟩ := hy'
  have d2 : IsDouble 2 := by simpa using double_nat (n := 2) (by norm_num)
  have d01 := fl_unit (x := x' - x) (by linarith) (by linarith)
  have de := fl_error_unit (z := x' - x) (by linarith) (by linarith)
  have s0 : 0 ≤ fl (y' + y) := fl_nonneg (by linarith)
  have s2 : fl (y' + y) ≤ 2 := fl_le d2 (by linarith)
  have se := fl_error_two (z := y' + y) (by linarith) (by linarith)
  generalize fl (x' - x) = d at *
  generalize fl (y' + y) = s at *
  have ds0 : 0 ≤ d * s := mul_nonneg d01.1 s0
  have ds2 : d * s ≤ 2 := by nlinarith [d01.1, d01.2]
  have pe := fl_error_two ds0 ds2
  have p0 : 0 ≤ fl (d * s) := fl_nonneg ds0
  have p2 : fl (d * s) ≤ 2 := fl_le d2 ds2
  generalize fl (d * s) = p at *
  have te := fl_error_unit (z := p / 2) (by linarith) (by linarith)
  generalize fl (p / 2) = t at *
  have key : |d * s - (X' - X) * (Y' + Y)| ≤ 12 / 2 ^ 54 := by
    have e : d * s - (X' - X) * (Y' + Y) = d * (s - (Y' + Y)) + (Y' + Y) * (d - (X' - X)) := by ring
    have a : |s - (Y' + Y)| ≤ 6 / 2 ^ 54 := by
      rw [abs_le] at *
      norm_num at *
      constructor <;> linarith
    have b : |d - (X' - X)| ≤ 3 / 2 ^ 54 := by
      rw [abs_le] at *
      norm_num at *
      constructor <;> linarith
    rw [e]
    refine le_trans (abs_add_le _ _) ?_
    rw [abs_mul, abs_mul, abs_of_nonneg d01.1, abs_of_nonneg (show 0 ≤ Y' + Y by linarith [hY.1, hY'.1])]
    have a' : d * |s - (Y' + Y)| ≤ 1 * (6 / 2 ^ 54) := mul_le_mul d01.2 a (abs_nonneg _) zero_le_one
    have b' : (Y' + Y) * |d - (X' - X)| ≤ 2 * (3 / 2 ^ 54) :=
      mul_le_mul (by linarith [hY.2, hY'.2]) b (abs_nonneg _) (by norm_num)
    norm_num at *
    linarith
  rw [abs_le] at *
  norm_num at *
  constructor <;> linarith

theorem ratio_error {a n : Nat} (h : a ≤ n) (hn : n ≤ 2 ^ 53) :
    |flRatio a n - Classification.ratio a n| ≤ 1 / 2 ^ 54 ∧ 0 ≤ Classification.ratio a n ∧ Classification.ratio a n ≤ 1 := by
  unfold flRatio Classification.ratio
  split
  · obtain ⟨u, v⟩ := div_unit (a := (a : Rat)) (b := n) (Nat.cast_nonneg _) (by exact_mod_cast h)
    rw [flDiv_eq (by omega) hn]
    exact ⟨fl_error_unit u v, u, v⟩
  · simp

/-- The points of the curve cache: both counts grow, up to the counts of negatives and positives. -/
def Climbing (neg pos : Nat) (pts : List (Nat × Nat)) : Prop :=
  (∀ x ∈ pts, x.1 ≤ neg ∧ x.2 ≤ pos) ∧ pts.Pairwise (fun a b => a.1 ≤ b.1 ∧ a.2 ≤ b.2)

theorem flRatio_mono {a b n : Nat} (h : a ≤ b) : flRatio a n ≤ flRatio b n := by
  unfold flRatio
  split
  · apply fl_mono
    apply div_le_div_of_nonneg_right (fl_mono (by exact_mod_cast h)) (fl_nonneg (Nat.cast_nonneg _))
  · exact le_refl _

theorem trap_error {neg pos : Nat} (hn : neg ≤ 2 ^ 53) (hp : pos ≤ 2 ^ 53) : ∀ (pts : List (Nat × Nat)), Climbing neg pos pts →
    |(flTrap (pts.map (fun x => (flRatio x.1 neg, flRatio x.2 pos)))).sum
      - trapezoid (pts.map (fun x => (Classification.ratio x.1 neg, Classification.ratio x.2 pos)))|
      ≤ ((flTrap (pts.map (fun x => (flRatio x.1 neg, flRatio x.2 pos)))).length : Rat) * (1 / 2 ^ 51)
  | [], _ => by simp [flTrap, trapezoid]
  | [_], _ => by simp [flTrap, trapezoid]
  | a :: b :: rest, h => by
    have ha := h.1 a (by simp)
    have hb := h.1 b (by simp)
    have hp2 := List.pairwise_cons.1 h.2
    have ih := trap_error hn hp (b :: rest) ⟨fun x hx => h.1 x (List.mem_cons_of_mem _ hx), hp2.2⟩
    obtain ⟨e1, _, _⟩ := ratio_error ha.1 hn
    obtain ⟨e2, f2, g2⟩ := ratio_error ha.2 hp
    obtain ⟨e3, _, _⟩ := ratio_error hb.1 hn
    obtain ⟨e4, f4, g4⟩ := ratio_error hb.2 hp
    have te := term_error (unit_flRatio ha.1) (unit_flRatio hb.1) (unit_flRatio ha.2) (unit_flRatio hb.2)
      (flRatio_mono (hp2.1 b (by simp)).1) ⟨f2, g2⟩ ⟨f4, g4⟩ e1 e3 e2 e4
    simp only [List.map_cons, flTrap, trapezoid, List.sum_cons, List.length_cons] at ih ⊢
    push_cast
    rw [abs_le] at *
    constructor <;> linarith [ih.1, ih.2, te.1, te.2]

/-! ## The loop over the chunks -/

theorem rising_of_climbing {neg pos : Nat} {pts : List (Nat × Nat)} (h : Climbing neg pos pts) :
    Rising (pts.map (fun x => (flRatio x.1 neg, flRatio x.2 pos))) := by
  constructor
  · intro a ha
    obtain ⟨x, hx, rfl⟩ := List.mem_map.1 ha
    exact ⟨(unit_flRatio (h.1 x hx).1).1, C72_ratio_range (h.1 x hx).2⟩
  · rw [List.pairwise_map]
    exact h.2.imp (fun hab => flRatio_mono hab.1)

theorem chunks_bound {sum : List Rat → Rat} (hsum : ∀ xs, Sums xs (sum xs)) (l gt pd : Nat) :
    ∀ (chunks : List (List RocRow)) (acc : Rat × Nat × Nat) (E : Rat) (T : List Rat) (n : Nat), Sums T acc.1 →
    (∀ t ∈ T, IsDouble t ∧ 0 ≤ t) → T.sum ≤ (1 + 1 / 2 ^ 53) * flRatio acc.2.1 (negCount pd gt) → T.length ≤ n →
    acc.2.1 ≤ negCount pd gt →
    Climbing (negCount pd gt) gt (acc.2 :: points l chunks.flatten) →
    (negCount pd gt ≤ 2 ^ 53 → gt ≤ 2 ^ 53 → |T.sum - E| ≤ (T.length : Rat) * (1 / 2 ^ 51)) →
    ∃ T' : List Rat, Sums T' (chunks.foldl (flRocChunk sum l gt pd) acc).1 ∧ (∀ t ∈ T', IsDouble t ∧ 0 ≤ t) ∧
      T'.sum ≤ 1 + 1 / 2 ^ 53 ∧ T'.length ≤ n + (points l chunks.flatten).length ∧
      (negCount pd gt ≤ 2 ^ 53 → gt ≤ 2 ^ 53 →
        |T'.sum - (chunks.foldl (rocChunk l gt pd) (E, acc.2)).1| ≤ (T'.length : Rat) * (1 / 2 ^ 51)) := by
  have u0 : (0 : Rat) < 1 / 2 ^ 53 := by positivity
  intro chunks
  induction chunks with
  | nil =>
    intro acc E T n hS hT hsumT hn hneg _ hE
    refine ⟨T, hS, hT, ?_, Nat.le_add_right_of_le hn, hE⟩
    have := (C72_ratio_range hneg).2
    nlinarith
  | cons c cs ih =>
    intro acc E T n hS hT hsumT hn hneg hcl hE
    have hpts : points l (c :: cs).flatten = points l c ++ points l cs.flatten := by
      rw [List.flatten_cons, points_append]
    rw [hpts] at hcl
    rw [hpts, List.length_append, List.foldl_cons, List.foldl_cons]
    -- the rest of the loop
    have go : ∀ (acc' : Rat × Nat × Nat) (E' : Rat) (T' : List Rat), flRocChunk sum l gt pd acc c = acc' →
        rocChunk l gt pd (E, acc.2) c = (E', acc'.2) → Sums T' acc'.1 →
        (∀ t ∈ T', IsDouble t ∧ 0 ≤ t) → T'.sum ≤ (1 + 1 / 2 ^ 53) * flRatio acc'.2.1 (negCount pd gt) →
        T'.length ≤ n + (points l c).length → acc'.2.1 ≤ negCount pd gt →
        Climbing (negCount pd gt) gt (acc'.2 :: points l cs.flatten) →
        (negCount pd gt ≤ 2 ^ 53 → gt ≤ 2 ^ 53 → |T'.sum - E'| ≤ (T'.length : Rat) * (1 / 2 ^ 51)) →
        ∃ T' : List Rat, Sums T' (cs.foldl (flRocChunk sum l gt pd) (flRocChunk sum l gt pd acc c)).1 ∧
          (∀ t ∈ T', IsDouble t ∧ 0 ≤ t) ∧ T'.sum ≤ 1 + 1 / 2 ^ 53 ∧
          T'.length ≤ n + ((points l c).length + (points l cs.flatten).length) ∧
          (negCount pd gt ≤ 2 ^ 53 → gt ≤ 2 ^ 53 →
            |T'.sum - (cs.foldl (rocChunk l gt pd) (rocChunk l gt pd (E, acc.2) c)).1| ≤ (T'.length : Rat) * (1 / 2 ^ 51)) := by
      intro acc' E' T' he he' h1 h2 h3 h4 h5 h6 h7
      rw [he, he']
      obtain ⟨T'', a, b, d, e, f⟩ := ih acc' E' T' (n + (points l c).length) h1 h2 h3 h4 h5 h6 h7
      exact ⟨T'', a, b, d, by omega, f⟩
    have hp : (c.filter (fun r => decide (r.label = l))).map (fun r => (r.fp, r.tp)) = points l c := rfl
    by_cases hskip : pd = 0 ∨ (points l c).length = 0
    · have he : flRocChunk sum l gt pd acc c = acc := by
        unfold flRocChunk; dsimp only; rw [hp, if_pos hskip]
      have he' : rocChunk l gt pd (E, acc.2) c = (E, acc.2) := by
        unfold rocChunk; dsimp only; rw [hp, if_pos hskip]
      refine go acc E T he he' hS hT hsumT (by omega) hneg ?_ hE
      refine ⟨fun x hx => hcl.1 x (by
        rcases List.mem_cons.1 hx with h | h
        · simp [h]
        · simp [h]), ?_⟩
      have := hcl.2
      rw [List.pairwise_cons] at this ⊢
      exact ⟨fun x hx => this.1 x (List.mem_append_right _ hx), (List.pairwise_append.1 this.2).2.1⟩
    · rw [not_or] at hskip
      have hne : points l c ≠ [] := by intro h; apply hskip.2; rw [h]; rfl
      -- the new previous point is the last point of the chunk
      have hlast : ∀ p : List (Nat × Nat), (p = acc.2 :: points l c ∨ p = points l c) →
          p.getLastD (0, 0) = (points l c).getLast hne := by
        rintro p (rfl | rfl)
        · rw [List.getLastD_eq_getLast?, List.getLast?_cons, List.getLast?_eq_getLast_of_ne_nil hne]; rfl
        · rw [List.getLastD_eq_getLast?, List.getLast?_eq_getLast_of_ne_nil hne]; rfl
      have hmem := List.getLast_mem hne
      have hp2 := List.pairwise_cons.1 hcl.2
      have hnegL : ((points l c).getLast hne).1 ≤ negCount pd gt := (hcl.1 _ (by simp [hmem])).1
      have hclL : Climbing (negCount pd gt) gt ((points l c).getLast hne :: points l cs.flatten) := by
        refine ⟨fun x hx => hcl.1 x (by
          rcases List.mem_cons.1 hx with h | h
          · rw [h]; simp [hmem]
          · simp [h]), ?_⟩
        have h3 := List.pairwise_append.1 hp2.2
        rw [List.pairwise_cons]
        exact ⟨fun x hx => h3.2.2 _ hmem x hx, h3.2.1⟩
      have hgrow : flRatio acc.2.1 (negCount pd gt) ≤ flRatio ((points l c).getLast hne).1 (negCount pd gt) :=
        flRatio_mono (hp2.1 _ (by simp [hmem])).1
      -- the points that are integrated
      generalize hP : (if acc.2.1 > 0 ∨ acc.2.2 > 0 then acc.2 :: points l c else points l c) = P
      have hPor : P = acc.2 :: points l c ∨ P = points l c := by
        rw [← hP]; split
        · exact Or.inl rfl
        · exact Or.inr rfl
      have he : flRocChunk sum l gt pd acc c = if P.length = 1 then (acc.1, P.getLastD (0, 0)) else
          (fl (acc.1 + sum (flTrap (P.map (fun x => (flRatio x.1 (negCount pd gt), flRatio x.2 gt))))), P.getLastD (0, 0)) := by
        unfold flRocChunk; dsimp only; rw [hp, if_neg (by rw [not_or]; exact hskip), hP]
      have he' : rocChunk l gt pd (E, acc.2) c = if P.length = 1 then (E, P.getLastD (0, 0)) else
          (E + trapezoid (P.map (fun x => (Classification.ratio x.1 (negCount pd gt), Classification.ratio x.2 gt))),
            P.getLastD (0, 0)) := by
        unfold rocChunk; dsimp only; rw [hp, if_neg (by rw [not_or]; exact hskip), hP]
      by_cases hone : P.length = 1
      · rw [if_pos hone, hlast P hPor] at he he'
        refine go _ E T he he' hS hT ?_ (by omega) hnegL hclL hE
        exact le_trans hsumT (mul_le_mul_of_nonneg_left hgrow (by linarith))
      · rw [if_neg hone, hlast P hPor] at he he'
        have hclP : Climbing (negCount pd gt) gt P := by
          rcases hPor with rfl | rfl
          · refine ⟨fun x hx => hcl.1 x (by
              rcases List.mem_cons.1 hx with h | h
              · simp [h]
              · simp [h]), ?_⟩
            rw [List.pairwise_cons]
            exact ⟨fun x hx => hp2.1 x (List.mem_append_left _ hx), (List.pairwise_append.1 hp2.2).1⟩
          · exact ⟨fun x hx => hcl.1 x (by simp [hx]), (List.pairwise_append.1 hp2.2).1⟩
        have hr := rising_of_climbing hclP
        have hPlen : P.length ≤ (points l c).length + 1 := by
          rcases hPor with rfl | rfl <;> simp
        have hlastP := hlast P hPor
        have hPhead : ∀ x ∈ P, flRatio acc.2.1 (negCount pd gt) ≤ flRatio x.1 (negCount pd gt) := by
          intro x hx
          rcases hPor with rfl | rfl
          · rcases List.mem_cons.1 hx with h | h
            · rw [h]
            · exact flRatio_mono (hp2.1 x (by simp [h])).1
          · exact flRatio_mono (hp2.1 x (by simp [hx])).1
        cases P with
        | nil => rcases hPor with h | h
                 · cases h
                 · exact absurd h.symm hne
        | cons x0 xs =>
          have herr := fun a b => trap_error (neg := negCount pd gt) (pos := gt) a b (x0 :: xs) hclP
          rw [List.map_cons] at hr he herr
          obtain ⟨t1, t2⟩ := trap_terms _ _ hr
          have hlen := trap_length ((flRatio x0.1 (negCount pd gt), flRatio x0.2 gt)
            :: xs.map (fun x => (flRatio x.1 (negCount pd gt), flRatio x.2 gt)))
          have hlastr : (((flRatio x0.1 (negCount pd gt), flRatio x0.2 gt)
              :: xs.map (fun x => (flRatio x.1 (negCount pd gt), flRatio x.2 gt))).getLastD (0, 0)).1
              = flRatio ((points l c).getLast hne).1 (negCount pd gt) := by
            have : ((flRatio x0.1 (negCount pd gt), flRatio x0.2 gt)
              :: xs.map (fun x => (flRatio x.1 (negCount pd gt), flRatio x.2 gt)))
              = (x0 :: xs).map (fun x => (flRatio x.1 (negCount pd gt), flRatio x.2 gt)) := rfl
            rw [this, List.getLastD_eq_getLast?, List.getLast?_map]
            rw [List.getLastD_eq_getLast?] at hlastP
            cases hg : (x0 :: xs).getLast? with
            | none => simp at hg
            | some z => rw [hg] at hlastP; rw [← hlastP]; rfl
          rw [hlastr] at t2
          have hx0 := hPhead x0 (by simp)
          refine go _ _ (T ++ flTrap ((flRatio x0.1 (negCount pd gt), flRatio x0.2 gt)
            :: xs.map (fun x => (flRatio x.1 (negCount pd gt), flRatio x.2 gt)))) he he' (Sums.add hS (hsum _)) ?_ ?_ ?_ hnegL hclL ?_
          · intro t ht
            rcases List.mem_append.1 ht with h | h
            · exact hT t h
            · exact t1 t h
          · rw [List.sum_append]
            dsimp only at t2 ⊢
            nlinarith
          · rw [List.length_append, hlen]
            simp only [List.length_cons, List.length_map] at hPlen ⊢
            omega
          · intro k1 k2
            have a := hE k1 k2
            have b := herr k1 k2
            rw [List.sum_append, List.length_append]
            push_cast
            rw [abs_le] at *
            constructor <;> linarith [a.1, a.2, b.1, b.2]

/-- The area of a climbing curve, whatever the chunks and the order of the additions. -/
theorem area_bound {sum : List Rat → Rat} (hsum : ∀ xs, Sums xs (sum xs)) (frags : List (List Row)) (chunks : List (List RocRow)) (l : Nat)
    (h : Climbing (negCount (pdCount frags l) (gtCount frags l)) (gtCount frags l) (points l chunks.flatten)) :
    (0 ≤ flRocauc sum frags chunks l ∧ flRocauc sum frags chunks l ≤ (1 + 1 / 2 ^ 53) ^ (points l chunks.flatten).length) ∧
    (negCount (pdCount frags l) (gtCount frags l) ≤ 2 ^ 53 → gtCount frags l ≤ 2 ^ 53 →
      (points l chunks.flatten).length ≤ 2 ^ 52 →
      |flRocauc sum frags chunks l - rocauc frags chunks l| ≤ ((points l chunks.flatten).length : Rat) / 2 ^ 50) := by
  have u0 : (0 : Rat) < 1 / 2 ^ 53 := by positivity
  obtain ⟨T, hS, hT, hsumT, hlen, hE⟩ := chunks_bound hsum l (gtCount frags l) (pdCount frags l) chunks (0, 0, 0) 0 [] 0 Sums.nil
    (by simp) (by
      have : flRatio 0 (negCount (pdCount frags l) (gtCount frags l)) = 0 := by
        unfold flRatio flDiv
        split <;> simp [fl_zero]
      simp [this]) (by simp) (by simp) (by
      refine ⟨?_, List.pairwise_cons.2 ⟨fun x _ => by simp, h.2⟩⟩
      intro x hx
      rcases List.mem_cons.1 hx with rfl | hx
      · simp
      · exact h.1 x hx) (by simp)
  obtain ⟨e1, e2⟩ := hS.error hT
  have s0 : 0 ≤ T.sum := List.sum_nonneg (fun t ht => (hT t ht).2)
  unfold flRocauc rocauc
  dsimp only at hE
  refine ⟨⟨le_trans (mul_nonneg (pow_nonneg (by norm_num) _) s0) e1, ?_⟩, ?_⟩
  · refine le_trans e2 ?_
    rcases Nat.eq_zero_or_pos T.length with h0 | h0
    · rw [List.length_eq_zero_iff.1 h0]
      simp only [List.sum_nil, mul_zero]
      exact pow_nonneg (by linarith) _
    · calc (1 + 1 / 2 ^ 53 : Rat) ^ (T.length - 1) * T.sum ≤ (1 + 1 / 2 ^ 53) ^ (T.length - 1) * (1 + 1 / 2 ^ 53) :=
            mul_le_mul_of_nonneg_left hsumT (pow_nonneg (by linarith) _)
        _ = (1 + 1 / 2 ^ 53) ^ T.length := by
            rw [← pow_succ]; congr 1; omega
        _ ≤ (1 + 1 / 2 ^ 53) ^ (points l chunks.flatten).length := pow_le_pow_right₀ (by linarith) (by omega)
  · intro k1 k2 k3
    have hE' := hE k1 k2
    have hT2 : T.sum ≤ 2 := le_trans hsumT (by norm_num)
    have hn1 : T.length - 1 ≤ 2 ^ 52 := by omega
    obtain ⟨p1, p2⟩ := pow_small hn1
    have hm : ((T.length - 1 : Nat) : Rat) ≤ (points l chunks.flatten).length := by exact_mod_cast (by omega : T.length - 1 ≤ _)
    have hm' : (T.length : Rat) ≤ (points l chunks.flatten).length := by exact_mod_cast (by omega : T.length ≤ _)
    have hm0 : (0 : Rat) ≤ ((T.length - 1 : Nat) : Rat) := Nat.cast_nonneg _
    have q1 := le_trans e2 (mul_le_mul_of_nonneg_right p1 s0)
    have q2 := le_trans (mul_le_mul_of_nonneg_right p2 s0) e1
    generalize ((T.length - 1 : Nat) : Rat) = m at *
    generalize ((points l chunks.flatten).length : Rat) = N at *
    generalize (T.length : Rat) = k at *
    generalize (chunks.foldl (flRocChunk sum l (gtCount frags l) (pdCount frags l)) (0, 0, 0)).1 = F at *
    generalize (chunks.foldl (rocChunk l (gtCount frags l) (pdCount frags l)) (0, 0, 0)).1 = G at *
    have hms : m * T.sum ≤ N * 2 := mul_le_mul hm hT2 s0 (le_trans hm0 hm)
    generalize T.sum = S at *
    rw [abs_le] at *
    norm_num at *
    constructor <;> nlinarith [hE'.1, hE'.2]

end Verif.Float
