import Verif.Detection.CountsProps
import Verif.Shared.Double
import Mathlib.Tactic.FieldSimp
import Mathlib.Tactic.Linarith

/-! # C29: average precision -/

namespace Verif.Detection

/-! ## Specification -/

/-- Correct decisions among the first `k`. -/
def hits (ds : List Bool) (k : Nat) : Nat := (ds.take k).count true

/-- Precision of the `k` highest ranked predictions. -/
def precisionAt (ds : List Bool) (k : Nat) : Rat := (hits ds k : Rat) / (k : Rat)

/-- The `k` highest ranked predictions reach recall `j / 100` of `n` ground truths. -/
def Reaches (n : Nat) (ds : List Bool) (j k : Nat) : Prop := 1 ≤ k ∧ k ≤ ds.length ∧ (j : Rat) / 100 ≤ (hits ds k : Rat) / (n : Rat)

/-- `v` is the interpolated precision at recall `j / 100`: the highest precision of a prefix that reaches
this recall, 0 if none does. -/
def Interpolated (n : Nat) (ds : List Bool) (j : Nat) (v : Rat) : Prop :=
  (∀ k, Reaches n ds j k → precisionAt ds k ≤ v) ∧ ((v = 0 ∧ ∀ k, ¬ Reaches n ds j k) ∨ ∃ k, Reaches n ds j k ∧ v = precisionAt ds k)

instance (t : Rat) (before : List RRow) (r : RRow) : Decidable (FirstAt t before r) := by
  unfold FirstAt Matches SameGroundtruth; infer_instance

/-- The decisions of the ranked predictions of label `l`: correct when the score is not zero and no
earlier row covers the same ground truth. -/
def decisions (t : Rat) (l : Int) : List RRow → List RRow → List Bool
  | _, [] => []
  | before, r :: rest =>
    if r.row.pl = l then
      decide (EPSILON < r.row.score ∧ FirstAt t before r) :: decisions t l (before ++ [r]) rest
    else decisions t l (before ++ [r]) rest

/-! ## Lemmas: points and curve -/

theorem points_append (t : Rat) (n : Nat) (a b : List RRow) (total tp : Nat) :
    (points t n total tp (a ++ b)).1 = (points t n total tp a).1 ++
      (points t n (points t n total tp a).2.1 (points t n total tp a).2.2 b).1 ∧
    (points t n total tp (a ++ b)).2 = (points t n (points t n total tp a).2.1 (points t n total tp a).2.2 b).2 := by
  induction a generalizing total tp with
  | nil => exact ⟨rfl, rfl⟩
  | cons r rs ih =>
    rw [List.cons_append, points, points]
    dsimp only
    rw [(ih _ _).1, (ih _ _).2]
    exact ⟨rfl, rfl⟩

theorem updatePrec_append (c : Nat → Rat) (p q : List Point) : updatePrec (updatePrec c p) q = updatePrec c (p ++ q) := by
  funext b
  unfold updatePrec
  rw [List.filter_append, List.map_append, List.foldl_append]

theorem curve_aux (t : Rat) (n : Nat) (l : Int) (chunks : List (List RRow)) (c : Curve) :
    (chunks.foldl (curveStep t n l) c).prec = updatePrec c.prec (points t n c.total c.tp
      (chunks.flatten.filter (fun r => decide (r.row.pl = l)))).1 := by
  induction chunks generalizing c with
  | nil =>
    funext b
    simp [updatePrec, points]
  | cons a cs ih =>
    rw [List.foldl_cons, ih, List.flatten_cons, List.filter_append, (points_append t n _ _ _ _).1, ← updatePrec_append]
    rfl

/-- The precisions of the curve do not depend on the cut into tables. -/
theorem curve_prec (t : Rat) (n : Nat) (l : Int) (chunks : List (List RRow)) :
    (curveOf t n l chunks).prec = updatePrec (fun _ => 0) (points t n 0 0
      (chunks.flatten.filter (fun r => decide (r.row.pl = l)))).1 := curve_aux t n l chunks Curve.init

theorem hits_cons (d : Bool) (ds : List Bool) (k : Nat) : hits (d :: ds) (k + 1) = (if d then 1 else 0) + hits ds k := by
  unfold hits
  rw [List.take_succ_cons, List.count_cons]
  cases d <;> simp <;> omega

theorem mem_points (t : Rat) (n : Nat) (rows : List RRow) (total tp : Nat) (p : Point) :
    p ∈ (points t n total tp rows).1 ↔ ∃ k, ∃ h : k < rows.length,
      p = ⟨(⌊recall (if tpOuter t rows[k] then tp + hits (rows.map (tpOuter t)) (k + 1) else 0) n * 100⌋).toNat,
        ((if tpOuter t rows[k] then tp + hits (rows.map (tpOuter t)) (k + 1) else 0 : Nat) : Rat) / ((total + k + 1 : Nat) : Rat),
        rows[k].row.score⟩ := by
  induction rows generalizing total tp with
  | nil => simp [points]
  | cons r rs ih =>
    rw [points]
    dsimp only
    rw [List.mem_cons, ih]
    constructor
    · rintro (rfl | ⟨k, h, rfl⟩)
      · refine ⟨0, by simp, ?_⟩
        rw [List.map_cons, hits_cons]
        by_cases h : tpOuter t r <;> simp [h, hits]
      · refine ⟨k + 1, by simpa using h, ?_⟩
        rw [List.map_cons, hits_cons, List.getElem_cons_succ]
        by_cases hk : tpOuter t rs[k]
        · rw [if_pos hk, if_pos hk]
          by_cases h : tpOuter t r <;> simp [h, Nat.add_assoc, Nat.add_comm, Nat.add_left_comm]
        · rw [if_neg hk, if_neg hk]
          congr 3
          omega
    · rintro ⟨k, h, rfl⟩
      cases k with
      | zero =>
        left
        rw [List.map_cons, hits_cons]
        by_cases h : tpOuter t r <;> simp [h, hits]
      | succ k =>
        right
        have hk' : k < rs.length := by simpa using h
        refine ⟨k, hk', ?_⟩
        rw [List.map_cons, hits_cons, List.getElem_cons_succ]
        by_cases hk : tpOuter t rs[k]
        · rw [if_pos hk, if_pos hk]
          by_cases h : tpOuter t r <;> simp [h, Nat.add_assoc, Nat.add_comm, Nat.add_left_comm]
        · rw [if_neg hk, if_neg hk]
          congr 3
          omega

theorem foldl_max_ge (l : List Rat) (a : Rat) : a ≤ l.foldl max a ∧ ∀ x ∈ l, x ≤ l.foldl max a := by
  induction l generalizing a with
  | nil => simp
  | cons y l ih =>
    rw [List.foldl_cons]
    obtain ⟨h1, h2⟩ := ih (max a y)
    refine ⟨le_trans (le_max_left _ _) h1, ?_⟩
    intro x hx
    rcases List.mem_cons.1 hx with rfl | h
    · exact le_trans (le_max_right _ _) h1
    · exact h2 x h

theorem foldl_max_mem (l : List Rat) (a : Rat) : l.foldl max a = a ∨ l.foldl max a ∈ l := by
  induction l generalizing a with
  | nil => simp
  | cons y l ih =>
    rw [List.foldl_cons]
    rcases ih (max a y) with h | h
    · rw [h]
      rcases max_choice a y with h' | h'
      · exact Or.inl h'
      · right; rw [h']; simp
    · right; simp [h]

/-- The reported values of the sweep. -/
theorem sweep_spec (c : Nat → Rat) (k : Nat) (m : Rat) :
    (sweep c k m).1.length = k ∧ (sweep c k m).2 = (sweep c k m).1.sum ∧
    ∀ i : Nat, ∀ h : i < (sweep c k m).1.length,
      (m ≤ (sweep c k m).1[i] ∧ ∀ b, i ≤ b → b < k → c b ≤ (sweep c k m).1[i]) ∧
      ((sweep c k m).1[i] = m ∨ ∃ b, i ≤ b ∧ b < k ∧ (sweep c k m).1[i] = c b) := by
  induction k generalizing m with
  | zero => simp [sweep]
  | succ k ih =>
    rw [sweep]
    dsimp only
    obtain ⟨h1, h2, h3⟩ := ih (max (c k) m)
    generalize hrest : sweep c k (max (c k) m) = rest at *
    refine ⟨by simp [h1], by rw [List.sum_append, h2]; simp [add_comm], ?_⟩
    intro i hi
    rw [List.length_append, List.length_singleton, h1] at hi
    by_cases hik : i < k
    · rw [List.getElem_append_left (by omega)]
      obtain ⟨⟨g1, g2⟩, g3⟩ := h3 i (by omega)
      refine ⟨⟨le_trans (le_max_right _ _) g1, ?_⟩, ?_⟩
      · intro b hb hbk
        by_cases hb' : b < k
        · exact g2 b hb hb'
        · have : b = k := by omega
          subst this
          exact le_trans (le_max_left _ _) g1
      · rcases g3 with g3 | ⟨b, hb1, hb2, hb3⟩
        · rcases max_choice (c k) m with h | h
          · right; exact ⟨k, by omega, by omega, by rw [g3, h]⟩
          · left; rw [g3, h]
        · right; exact ⟨b, hb1, by omega, hb3⟩
    · have hik' : i = k := by omega
      rw [List.getElem_append_right (by omega)]
      simp only [List.getElem_singleton]
      refine ⟨⟨le_max_right _ _, ?_⟩, ?_⟩
      · intro b hb hbk
        have : b = k := by omega
        subst this
        exact le_max_left _ _
      · rcases max_choice (c k) m with h | h
        · right; exact ⟨k, by omega, by omega, h⟩
        · left; exact h

theorem hits_le (ds : List Bool) (k : Nat) : hits ds k ≤ k := by
  unfold hits
  exact le_trans List.count_le_length (by rw [List.length_take]; omega)

theorem hits_le_count (ds : List Bool) (k : Nat) : hits ds k ≤ ds.count true := (List.take_sublist k ds).count_le _

theorem hits_succ (ds : List Bool) (k : Nat) (h : k < ds.length) : hits ds (k + 1) = hits ds k + if ds[k] then 1 else 0 := by
  unfold hits
  rw [List.take_add_one, List.getElem?_eq_getElem h, List.count_append]
  cases ds[k] <;> simp

/-- A prefix with a hit has a shorter prefix that ends with a hit, with the same hits. -/
theorem last_hit (ds : List Bool) (k : Nat) (hk : k ≤ ds.length) (h : 0 < hits ds k) :
    ∃ i, ∃ hi : i < ds.length, i < k ∧ ds[i] = true ∧ hits ds (i + 1) = hits ds k := by
  induction k with
  | zero => simp [hits] at h
  | succ k ih =>
    have hs := hits_succ ds k (by omega)
    cases hd : ds[k] with
    | true => exact ⟨k, by omega, by omega, hd, rfl⟩
    | false =>
      rw [hd] at hs
      simp at hs
      obtain ⟨i, hi, h1, h2, h3⟩ := ih (by omega) (by omega)
      exact ⟨i, hi, by omega, h2, by omega⟩

theorem precisionAt_range (ds : List Bool) (k : Nat) : 0 ≤ precisionAt ds k ∧ precisionAt ds k ≤ 1 := by
  unfold precisionAt
  refine ⟨div_nonneg (by positivity) (by positivity), ?_⟩
  apply div_le_one_of_le₀ _ (by positivity)
  exact_mod_cast hits_le ds k

/-- The bin of a recall level. -/
theorem bin_ge {c n : Nat} (j : Nat) (hn : 0 < n) :
    j ≤ (⌊recall c n * 100⌋).toNat ↔ (j : Rat) / 100 ≤ (c : Rat) / (n : Rat) := by
  unfold recall
  rw [if_pos hn]
  have h0 : (0 : Rat) ≤ (c : Rat) / (n : Rat) * 100 := by positivity
  rw [Int.le_toNat (Int.floor_nonneg.2 h0), Int.le_floor, div_le_iff₀ (by norm_num)]
  norm_cast

theorem bin_le {c n : Nat} (h : c ≤ n) : (⌊recall c n * 100⌋).toNat ≤ 100 := by
  unfold recall
  split
  · rename_i hn
    have hn' : (0 : Rat) < (n : Rat) := by exact_mod_cast hn
    have : (c : Rat) / (n : Rat) ≤ 1 := by
      rw [div_le_one hn']; exact_mod_cast h
    have h2 : ⌊(c : Rat) / (n : Rat) * 100⌋ ≤ 100 := by
      have := Int.floor_le ((c : Rat) / (n : Rat) * 100)
      have h3 : ((⌊(c : Rat) / (n : Rat) * 100⌋ : Int) : Rat) ≤ (100 : Int) := by
        push_cast
        linarith
      exact_mod_cast h3
    omega
  · simp

/-- **C29 (interpolation).** For every cut of the ranked rows into tables: if there are no more true
positives than ground truths, the reported curve has 101 values, value `j` is the interpolated precision
at recall `j / 100` of the sequence of decisions of the label, and the average precision is their mean. -/
theorem C29_interpolation (t : Rat) (n : Nat) (l : Int) (chunks : List (List RRow)) (ds : List Bool)
    (hds : ds = (chunks.flatten.filter (fun r => decide (r.row.pl = l))).map (tpOuter t)) (hn : ds.count true ≤ n) :
    (interpolated (curveOf t n l chunks).prec).length = 101 ∧
    (∀ j : Nat, ∀ h : j < (interpolated (curveOf t n l chunks).prec).length,
      Interpolated n ds j (interpolated (curveOf t n l chunks).prec)[j]) ∧
    averagePrecision (curveOf t n l chunks).prec = (interpolated (curveOf t n l chunks).prec).sum / 101 := by
  rw [curve_prec]
  generalize hrows : chunks.flatten.filter (fun r => decide (r.row.pl = l)) = rows at *
  set c := updatePrec (fun _ => 0) (points t n 0 0 rows).1 with hc
  obtain ⟨h1, h2, h3⟩ := sweep_spec c 101 0
  unfold interpolated averagePrecision
  generalize sweep c 101 0 = S at *
  refine ⟨h1, ?_, by rw [h2]⟩
  intro j hj
  obtain ⟨⟨g1, g2⟩, g3⟩ := h3 j hj
  generalize S.1[j] = v at *
  clear h1 h2 h3 hj
  have hlen : ds.length = rows.length := by rw [hds, List.length_map]
  have hget : ∀ k, ∀ h : k < rows.length, ds[k]'(by omega) = tpOuter t rows[k] := by
    intro k h; subst hds; simp
  -- no ground truths: no hits
  have hzero : n = 0 → ∀ k, hits ds k = 0 := by
    intro h0 k
    have := hits_le_count ds k
    omega
  -- upper bound
  have hub : ∀ k, Reaches n ds j k → precisionAt ds k ≤ v := by
    intro k ⟨hk1, hk2, hk3⟩
    by_cases hh : hits ds k = 0
    · unfold precisionAt
      rw [hh]
      simpa using g1
    obtain ⟨i, hi, hik, hit, hhits⟩ := last_hit ds k hk2 (by omega)
    have hnpos : 0 < n := by
      by_contra hcon
      exact hh (hzero (by omega) k)
    have hle : hits ds (i + 1) ≤ n := le_trans (hits_le_count _ _) hn
    have hp : precisionAt ds k ≤ (hits ds (i + 1) : Rat) / ((0 + i + 1 : Nat) : Rat) := by
      unfold precisionAt
      rw [hhits]
      apply div_le_div_of_nonneg_left (by positivity)
      · have : 0 < 0 + i + 1 := by omega
        exact_mod_cast this
      · have : 0 + i + 1 ≤ k := by omega
        exact_mod_cast this
    set b := (⌊recall (hits ds (i + 1)) n * 100⌋).toNat with hb
    have hbj : j ≤ b := by
      rw [hb, bin_ge j hnpos, hhits]
      exact hk3
    have hb100 : b < 101 := by
      have := bin_le hle
      omega
    refine le_trans hp (le_trans ?_ (g2 b hbj hb100))
    rw [hc]
    unfold updatePrec
    apply (foldl_max_ge _ _).2
    refine List.mem_map.2 ⟨⟨b, (hits ds (i + 1) : Rat) / ((0 + i + 1 : Nat) : Rat), rows[i].row.score⟩, ?_, rfl⟩
    rw [List.mem_filter]
    refine ⟨?_, by simp⟩
    rw [mem_points]
    refine ⟨i, by omega, ?_⟩
    have hti : tpOuter t rows[i] = true := by rw [← hget i (by omega)]; exact hit
    rw [if_pos hti, ← hds, Nat.zero_add (hits ds (i + 1)), ← hb]
  refine ⟨hub, ?_⟩
  -- attained
  have hcases : v = 0 ∨ ∃ k, Reaches n ds j k ∧ v = precisionAt ds k := by
    rcases g3 with g3 | ⟨b, hb1, hb2, hb3⟩
    · exact Or.inl g3
    rw [hc] at hb3
    unfold updatePrec at hb3
    rcases foldl_max_mem (((points t n 0 0 rows).1.filter (fun p => decide (p.bin = b))).map Point.prec) 0 with h | h
    · exact Or.inl (hb3.trans h)
    rw [← hb3] at h
    obtain ⟨p, hp, hpv⟩ := List.mem_map.1 h
    rw [List.mem_filter, decide_eq_true_eq, mem_points] at hp
    obtain ⟨⟨k, hk, rfl⟩, hbin⟩ := hp
    by_cases hti : tpOuter t rows[k] = true
    · rw [← hds] at hbin hpv
      simp only [hti, if_true, Nat.zero_add] at hbin hpv
      by_cases hnpos : 0 < n
      · right
        refine ⟨k + 1, ⟨by omega, by omega, ?_⟩, ?_⟩
        · rw [← bin_ge j hnpos, hbin]
          exact hb1
        · rw [← hpv]
          rfl
      · left
        rw [← hpv, hzero (by omega)]
        simp
    · left
      rw [Bool.not_eq_true] at hti
      rw [← hpv]
      simp [hti]
  rcases hcases with h0 | h
  · by_cases hex : ∃ k, Reaches n ds j k
    · obtain ⟨k, hk⟩ := hex
      right
      refine ⟨k, hk, ?_⟩
      have := hub k hk
      have := (precisionAt_range ds k).1
      rw [h0] at *
      linarith
    · left
      exact ⟨h0, fun k hk => hex ⟨k, hk⟩⟩
  · exact Or.inr h

/-- The interpolated precision is determined by its specification. -/
theorem interpolated_unique {n : Nat} {ds : List Bool} {j : Nat} {v w : Rat} (hv : Interpolated n ds j v)
    (hw : Interpolated n ds j w) : v = w := by
  rcases hv.2 with ⟨h1, h2⟩ | ⟨k, hk, rfl⟩
  · rcases hw.2 with ⟨h3, _⟩ | ⟨k, hk, _⟩
    · rw [h1, h3]
    · exact absurd hk (h2 k)
  · rcases hw.2 with ⟨_, h4⟩ | ⟨k', hk', rfl⟩
    · exact absurd hk (h4 k)
    · exact le_antisymm (hw.1 k hk) (hv.1 k' hk')

theorem sum_range {l : List Rat} {a b : Rat} (h : ∀ x ∈ l, a ≤ x ∧ x ≤ b) : (l.length : Rat) * a ≤ l.sum ∧ l.sum ≤ (l.length : Rat) * b := by
  induction l with
  | nil => simp
  | cons x l ih =>
    have h1 := h x (by simp)
    have h2 := ih (fun y hy => h y (by simp [hy]))
    rw [List.length_cons, List.sum_cons]
    push_cast
    constructor <;> linarith [h1.1, h1.2, h2.1, h2.2]

/-- A mean of 101 values. -/
theorem mean_range {l : List Rat} (hl : l.length = 101) {a b : Rat} (h : ∀ x ∈ l, a ≤ x ∧ x ≤ b) :
    a ≤ l.sum / 101 ∧ l.sum / 101 ≤ b := by
  have := sum_range h
  rw [hl] at this
  push_cast at this
  constructor
  · rw [le_div_iff₀ (by norm_num)]; linarith [this.1]
  · rw [div_le_iff₀ (by norm_num)]; linarith [this.2]

/-- **C29 (range).** Average precision is in [0, 1]. -/
theorem C29_range (t : Rat) (n : Nat) (l : Int) (chunks : List (List RRow))
    (hn : ((chunks.flatten.filter (fun r => decide (r.row.pl = l))).map (tpOuter t)).count true ≤ n) :
    0 ≤ averagePrecision (curveOf t n l chunks).prec ∧ averagePrecision (curveOf t n l chunks).prec ≤ 1 := by
  obtain ⟨h1, h2, h3⟩ := C29_interpolation t n l chunks _ rfl hn
  rw [h3]
  apply mean_range h1
  intro x hx
  obtain ⟨j, hj, rfl⟩ := List.getElem_of_mem hx
  rcases (h2 j hj).2 with ⟨h, _⟩ | ⟨k, _, h⟩
  · rw [h]; exact ⟨le_refl _, zero_le_one⟩
  · rw [h]; exact precisionAt_range _ k

/-- **C29 (perfect detector).** When all ground truths are found before any wrong prediction, the average
precision is 1. -/
theorem C29_perfect (t : Rat) (n m : Nat) (l : Int) (chunks : List (List RRow)) (hpos : 0 < n)
    (hds : (chunks.flatten.filter (fun r => decide (r.row.pl = l))).map (tpOuter t)
      = List.replicate n true ++ List.replicate m false) :
    averagePrecision (curveOf t n l chunks).prec = 1 := by
  obtain ⟨h1, h2, h3⟩ := C29_interpolation t n l chunks _ rfl (by rw [hds]; simp [List.count_replicate])
  rw [hds] at h2
  rw [h3]
  have hall : ∀ x ∈ interpolated (curveOf t n l chunks).prec, (1 : Rat) ≤ x ∧ x ≤ 1 := by
    intro x hx
    obtain ⟨j, hj, rfl⟩ := List.getElem_of_mem hx
    have hI := h2 j hj
    have hn0 : (n : Rat) ≠ 0 := by exact_mod_cast hpos.ne'
    have hh : hits (List.replicate n true ++ List.replicate m false) n = n := by
      unfold hits
      rw [List.take_append_of_le_length (by simp)]
      simp
    have hr : Reaches n (List.replicate n true ++ List.replicate m false) j n := by
      refine ⟨hpos, by simp, ?_⟩
      rw [hh, div_self hn0, div_le_one (by norm_num)]
      have : j ≤ 100 := by omega
      exact_mod_cast this
    have hp := hI.1 n hr
    unfold precisionAt at hp
    rw [hh, div_self hn0] at hp
    refine ⟨hp, ?_⟩
    rcases hI.2 with ⟨h, _⟩ | ⟨k, _, h⟩
    · rw [h]; exact zero_le_one
    · rw [h]; exact (precisionAt_range _ k).2
  have := mean_range h1 hall
  linarith [this.1, this.2]

/-- **C29 (no true positive).** -/
theorem C29_none (t : Rat) (n : Nat) (l : Int) (chunks : List (List RRow))
    (hds : ∀ r ∈ chunks.flatten, r.row.pl = l → tpOuter t r = false) :
    averagePrecision (curveOf t n l chunks).prec = 0 := by
  have hnone : ∀ b ∈ (chunks.flatten.filter (fun r => decide (r.row.pl = l))).map (tpOuter t), b = false := by
    intro b hb
    obtain ⟨r, hr, rfl⟩ := List.mem_map.1 hb
    rw [List.mem_filter, decide_eq_true_eq] at hr
    exact hds r hr.1 hr.2
  have hcount : ((chunks.flatten.filter (fun r => decide (r.row.pl = l))).map (tpOuter t)).count true = 0 := by
    rw [List.count_eq_zero]
    intro h
    exact absurd (hnone _ h) (by simp)
  obtain ⟨h1, h2, h3⟩ := C29_interpolation t n l chunks _ rfl (by rw [hcount]; omega)
  rw [h3]
  have := mean_range h1 (a := 0) (b := 0) (by
    intro x hx
    obtain ⟨j, hj, rfl⟩ := List.getElem_of_mem hx
    have : (interpolated (curveOf t n l chunks).prec)[j] = 0 := by
      rcases (h2 j hj).2 with ⟨h, _⟩ | ⟨k, _, h⟩
      · exact h
      · rw [h]
        unfold precisionAt
        have := hits_le_count ((chunks.flatten.filter (fun r => decide (r.row.pl = l))).map (tpOuter t)) k
        have h0 : hits ((chunks.flatten.filter (fun r => decide (r.row.pl = l))).map (tpOuter t)) k = 0 := by omega
        rw [h0]
        simp
    rw [this]; exact ⟨le_refl _, le_refl _⟩)
  linarith [this.1, this.2]

/-! ## The ranked cache -/

theorem tpOuter_iff {r : RRow} (h : RowOk r.row) (hp : 0 ≤ r.row.pd) (t : Rat) :
    tpOuter t r = true ↔ countsAt t r ∧ EPSILON < r.row.score := by
  unfold tpOuter maskIou scoreNonzero countsAt
  simp only [Bool.and_eq_true, maskMatch_iff h hp, decide_eq_true_eq, gt_iff_lt, ge_iff_le]
  tauto

theorem decisions_eq {out : List RRow} {t : Rat} {l : Int}
    (hall : ∀ pre r post, out = pre ++ r :: post → (tpOuter t r = true ↔ EPSILON < r.row.score ∧ FirstAt t pre r))
    (pre rest : List RRow) (h : out = pre ++ rest) :
    decisions t l pre rest = (rest.filter (fun r => decide (r.row.pl = l))).map (tpOuter t) := by
  induction rest generalizing pre with
  | nil => rfl
  | cons r rest ih =>
    have ih' := ih (pre ++ [r]) (by rw [h]; simp)
    have hr := hall pre r rest h
    unfold decisions
    rw [List.filter_cons]
    by_cases hl : r.row.pl = l
    · rw [if_pos hl, if_pos (by simpa using hl), List.map_cons, ih']
      congr 1
      rw [Bool.eq_iff_iff, hr, decide_eq_true_eq]
    · rw [if_neg hl, if_neg (by simpa using hl), ih']

/-- **C29 (ranked cache).** For a positive IoU threshold and the ranked cache of a detailed cache, in any
cut into tables: the reported curve consists of the interpolated precisions at the 101 recall levels of
the sequence of decisions of the label's ranked predictions, against the number of ground truths of the
label; the average precision is their mean and lies in [0, 1]. -/
theorem C29_cache {tables : List (List Row)} (hc : CacheOk tables) {out : List RRow} (h : RankedOf tables out)
    {t : Rat} (ht : 0 < t) (l : Int) (chunks : List (List RRow)) (hch : chunks.flatten = out) :
    (interpolated (curveOf t (gtCount tables l) l chunks).prec).length = 101 ∧
    (∀ j : Nat, ∀ h : j < (interpolated (curveOf t (gtCount tables l) l chunks).prec).length,
      Interpolated (gtCount tables l) (decisions t l [] out) j (interpolated (curveOf t (gtCount tables l) l chunks).prec)[j]) ∧
    averagePrecision (curveOf t (gtCount tables l) l chunks).prec
      = (interpolated (curveOf t (gtCount tables l) l chunks).prec).sum / 101 ∧
    0 ≤ averagePrecision (curveOf t (gtCount tables l) l chunks).prec ∧
    averagePrecision (curveOf t (gtCount tables l) l chunks).prec ≤ 1 := by
  have hfirst := fun pre r post (he : out = pre ++ r :: post) =>
    merged_first (t := t) hc.aligned (fun tbl ht r hr => (hc.iou tbl ht r hr).2) h.1 h.2 ht he
  have hd : decisions t l [] out = (chunks.flatten.filter (fun r => decide (r.row.pl = l))).map (tpOuter t) := by
    rw [hch]
    apply decisions_eq (out := out) _ [] out rfl
    intro pre r post he
    have hr : r ∈ out := by rw [he]; simp
    obtain ⟨_, h2, h3⟩ := ranked_pd hc h hr
    rw [tpOuter_iff h3 h2, hfirst pre r post he]
    tauto
  have hcount : ((chunks.flatten.filter (fun r => decide (r.row.pl = l))).map (tpOuter t)).count true ≤ gtCount tables l := by
    have hb := C28_bound hc h t EPSILON l chunks hch
    rw [tpTotal_eq hc h ht EPSILON l chunks hch] at hb
    refine le_trans (le_of_eq ?_) hb
    rw [hch, List.count, List.countP_map, List.countP_filter, List.countP_eq_length_filter]
    congr 1
    apply List.filter_congr
    intro r hr
    obtain ⟨_, h2, h3⟩ := ranked_pd hc h hr
    rw [Bool.eq_iff_iff]
    simp only [Function.comp_apply, Bool.and_eq_true, beq_iff_eq, decide_eq_true_eq, tpOuter_iff h3 h2, tpInner_iff h3 h2]
    constructor
    · rintro ⟨⟨h1, h2⟩, h3⟩; exact ⟨h3, h1, h2.le, h2⟩
    · rintro ⟨h1, h2, _, h3⟩; exact ⟨⟨h2, h3⟩, h1⟩
  obtain ⟨h1, h2, h3⟩ := C29_interpolation t (gtCount tables l) l chunks _ hd (by rw [hd]; exact hcount)
  exact ⟨h1, h2, h3, C29_range t _ l chunks hcount⟩

/-! ## Double precision -/

/-- The recall bin as computed with doubles (`computation.py` 484-490): the quotient and the product are
rounded before the floor. -/
def binDouble (c n : Nat) : Int := ⌊Verif.Shared.fl (Verif.Shared.fl ((c : Rat) / (n : Rat)) * 100)⌋

/-- **C29 (violation in double precision).** The theorems above are about exact arithmetic. With doubles
the recall 29/100 is put into bin 28: 29 of 100 ground truths found do not count for the recall level 0.29,
although they reach it. -/
theorem C29_double_violation : binDouble 29 100 = 28 ∧ (29 : Rat) / 100 ≤ ((29 : Nat) : Rat) / ((100 : Nat) : Rat) ∧
    (⌊recall 29 100 * 100⌋).toNat = 29 := by
  refine ⟨by decide +kernel, by norm_num, by decide +kernel⟩

/-- Correct decisions first, then a wrong one: hypotheses of `C29_perfect`. -/
example : ∃ chunks : List (List RRow), (chunks.flatten.filter (fun r => decide (r.row.pl = 0))).map (tpOuter (1 / 2))
    = List.replicate 2 true ++ List.replicate 1 false :=
  ⟨[[⟨⟨0, 0, 0, 0, 0, 9 / 10, 9 / 10⟩, 0⟩], [⟨⟨0, 1, 1, 0, 0, 9 / 10, 8 / 10⟩, 0⟩, ⟨⟨0, -1, 2, -1, 0, 0, 7 / 10⟩, 0⟩]],
    by decide +kernel⟩

/-- `C29_none`: predictions of the label, all of them wrong. -/
example : averagePrecision (curveOf (1 / 2) 3 0 [[⟨⟨0, 0, 0, 0, 0, 1 / 10, 9 / 10⟩, 0⟩], [⟨⟨0, -1, 2, -1, 0, 0, 7 / 10⟩, 0⟩]]).prec = 0 :=
  C29_none _ _ _ _ (by decide +kernel)

example : decisions (1 / 2) 0 [] [⟨⟨0, 0, 0, 0, 0, 9 / 10, 9 / 10⟩, 0⟩, ⟨⟨0, 0, 1, 0, 0, 8 / 10, 8 / 10⟩, 9 / 10⟩] = [true, false] := by
  decide +kernel

end Verif.Detection
