import Verif.Detection.CurveProps
import Verif.Detection.ScoreCurve

/-! # C105: repeating a dataset does not change curves and average precision -/

namespace Verif.Detection

open Verif.Cache (sortBy)

theorem hits_grow (ds : List Bool) {k m : Nat} (h : k ≤ m) : hits ds m ≤ hits ds k + (m - k) := by
  unfold hits
  obtain ⟨d, rfl⟩ := Nat.exists_eq_add_of_le h
  rw [List.take_add, List.count_append, Nat.add_sub_cancel_left]
  exact Nat.add_le_add_left (le_trans List.count_le_length (by rw [List.length_take]; omega)) _

section

variable {tables : List (List Row)} (hc : CacheOk tables) {out : List RRow} (h : RankedOf tables out) {t : Rat} (ht : 0 < t) (l : Int)
  (chunks : List (List RRow)) (hch : chunks.flatten = out)

include hc h ht hch in
/-- If the counts at every score threshold are `n` times the counts `T`, `F` and these count at most one more prediction at each score, then
every value of the curve is at most a precision of `T` and `F`. -/
theorem curve_copied {n g : Nat} (hn : 0 < n) {T F : Rat → Nat} (hT : ∀ s, tpTotal t s chunks l = n * T s) (hF : ∀ s, fpTotal t s chunks l = n * F s)
    (hG : gtCount tables l = n * g) (hstep : ∀ c, EPSILON < c → ∃ c', c < c' ∧ T c + F c ≤ T c' + F c' + 1) (j : Nat)
    (hj : j < (interpolated (curveOf t (gtCount tables l) l chunks).prec).length) :
    (interpolated (curveOf t (gtCount tables l) l chunks).prec)[j] = 0 ∨ ∃ s, EPSILON < s ∧ (j : Rat) / 100 ≤ recall (T s) g ∧
      (interpolated (curveOf t (gtCount tables l) l chunks).prec)[j] ≤ precision (T s) (F s) := by
  have hb := hits_bound hc h ht l chunks hch
  obtain ⟨_, h2, _⟩ := C29_interpolation t (gtCount tables l) l chunks _ (by rw [hch]) hb
  have hI := h2 j hj
  generalize (interpolated (curveOf t (gtCount tables l) l chunks).prec)[j] = w at hI ⊢
  rcases hI.2 with ⟨q, _⟩ | ⟨k, ⟨k1, k2, k3⟩, q⟩
  · exact Or.inl q
  by_cases hz : hits ((out.filter (fun r => decide (r.row.pl = l))).map (tpOuter t)) k = 0
  · left
    rw [q]
    unfold precisionAt
    rw [hz]
    simp
  right
  obtain ⟨i, hi, hik, hit, hhits⟩ := last_hit _ k k2 (Nat.pos_of_ne_zero hz)
  have hsc := (ranked_scores h).filter (fun r => decide (r.row.pl = l))
  have hiR : i < (out.filter (fun r => decide (r.row.pl = l))).length := by simpa using hi
  have hpre := threshold_prefix hc h ht l chunks hch
  have hN : ∀ s, tpTotal t s chunks l + fpTotal t s chunks l = ((out.filter (fun r => decide (r.row.pl = l))).filter (fun r => decide (Active s l r))).length := by
    intro s
    rw [C28_tp_fp, hch, List.filter_filter]
    refine congrArg List.length ?_
    apply List.filter_congr
    intro r _
    rw [Bool.eq_iff_iff]
    simp only [Bool.and_eq_true, decide_eq_true_eq]
    exact ⟨fun h => ⟨h, h.1⟩, fun h => h.1⟩
  have hRl : ∀ r ∈ out.filter (fun r => decide (r.row.pl = l)), r.row.pl = l := fun r hr => of_decide_eq_true (List.mem_filter.1 hr).2
  generalize out.filter (fun r => decide (r.row.pl = l)) = R at *
  have hto : tpOuter t R[i] = true := by simpa using hit
  have heps : EPSILON < R[i].row.score := by
    unfold tpOuter scoreNonzero at hto
    simp only [Bool.and_eq_true, decide_eq_true_eq] at hto
    exact hto.1.1
  generalize hs : R[i].row.score = c at *
  obtain ⟨c', hcc, hle⟩ := hstep c heps
  have e1 : tpTotal t c' chunks l + fpTotal t c' chunks l ≤ i := by
    by_contra hlt
    rw [hN] at hlt
    have hm : R[i] ∈ R.filter (fun r => decide (Active c' l r)) := by
      rw [active_prefix hsc l hRl c']
      exact List.mem_take_iff_getElem.2 ⟨i, by omega, rfl⟩
    have := (of_decide_eq_true (List.mem_filter.1 hm).2).2.1
    rw [hs] at this
    exact absurd this (not_le.2 hcc)
  have e2 : i + 1 ≤ tpTotal t c chunks l + fpTotal t c chunks l := by
    rw [hN]
    have hall : (R.take (i + 1)).filter (fun r => decide (Active c l r)) = R.take (i + 1) := by
      rw [List.filter_eq_self]
      intro r hr
      obtain ⟨m, hm, rfl⟩ := List.mem_take_iff_getElem.1 hr
      have : c ≤ R[m].row.score := by
        rcases Nat.lt_or_ge m i with hmi | hmi
        · rw [← hs]
          exact List.pairwise_iff_getElem.1 hsc m i (by omega) hiR hmi
        · have : m = i := by omega
          subst this
          exact hs.ge
      exact decide_eq_true ⟨hRl _ (List.getElem_mem _), this, lt_of_lt_of_le heps this⟩
    have := ((List.take_sublist (i + 1) R).filter (fun r => decide (Active c l r))).length_le
    rw [hall, List.length_take] at this
    omega
  have p1 := (hpre c').2
  have p2 := (hpre c).2
  have d1 := hits_grow (R.map (tpOuter t)) (le_trans e1 (Nat.le_succ i))
  have d2 := hits_mono (R.map (tpOuter t)) e2
  rw [p1, hhits] at d1
  rw [p2, hhits] at d2
  have hwle : w = (hits (R.map (tpOuter t)) k : Rat) / (k : Rat) := q
  generalize hits (R.map (tpOuter t)) k = x at *
  rw [hT, hF] at e1 e2 d1
  rw [hT] at d2
  clear p1 p2 hpre hN hI h2
  have hx : 0 < x := Nat.pos_of_ne_zero hz
  have hq : (0 : Rat) < n := by exact_mod_cast hn
  have hrec : ∀ s, x ≤ n * T s → (j : Rat) / 100 ≤ recall (T s) g := by
    intro s hxs
    rw [hG] at k3
    unfold recall
    by_cases hg : g > 0
    · rw [if_pos hg]
      refine le_trans k3 ?_
      have hg' : (0 : Rat) < g := by exact_mod_cast hg
      rw [div_le_div_iff₀ (by push_cast; exact mul_pos hq hg') hg']
      push_cast
      have : (x : Rat) ≤ n * T s := by exact_mod_cast hxs
      calc (x : Rat) * g ≤ (n * T s) * g := mul_le_mul_of_nonneg_right this hg'.le
        _ = T s * (n * g) := by ring
    · rw [if_neg hg]
      have h0 : g = 0 := by omega
      rw [h0, Nat.mul_zero, Nat.cast_zero, div_zero] at k3
      exact k3
  have hk0 : (0 : Rat) < k := by exact_mod_cast k1
  by_cases hcase : T c ≤ T c'
  · refine ⟨c', lt_trans heps hcc, ?_, ?_⟩
    · exact hrec c' (le_trans d2 (Nat.mul_le_mul_left _ hcase))
    · have hx' : x ≤ n * T c' := le_trans d2 (Nat.mul_le_mul_left _ hcase)
      have hpos : 0 < T c' := by
        rcases Nat.eq_zero_or_pos (T c') with h0 | h0
        · rw [h0] at hx'; omega
        · exact h0
      rw [hwle]
      unfold precision
      rw [if_pos (by omega)]
      have hN' : (0 : Rat) < ((T c' + F c' : Nat) : Rat) := by exact_mod_cast (by omega : 0 < T c' + F c')
      rw [div_le_div_iff₀ hk0 hN']
      have a1 : n * (T c' + F c') ≤ k := by rw [Nat.mul_add]; omega
      have : x * (T c' + F c') ≤ T c' * k := by
        calc x * (T c' + F c') ≤ (n * T c') * (T c' + F c') := Nat.mul_le_mul_right _ hx'
          _ = T c' * (n * (T c' + F c')) := by ring
          _ ≤ T c' * k := Nat.mul_le_mul_left _ a1
      exact_mod_cast this
  · refine ⟨c, heps, hrec c d2, ?_⟩
    rw [hwle]
    unfold precision
    rw [if_pos (by omega)]
    have hN' : (0 : Rat) < ((T c + F c : Nat) : Rat) := by exact_mod_cast (by omega : 0 < T c + F c)
    rw [div_le_div_iff₀ hk0 hN']
    obtain ⟨a, ha⟩ := Nat.exists_eq_add_of_lt (not_le.1 hcase)
    have a1 : n * T c' + n * F c' ≤ i := e1
    have a2 : x + n * F c' ≤ k := by omega
    have a3 : x ≤ n * (T c' + 1) := by
      have hh : n * T c + n * F c ≤ n * T c' + n * F c' + n := by
        have := Nat.mul_le_mul_left n hle
        simpa [Nat.mul_add] using this
      rw [Nat.mul_add, Nat.mul_one]
      omega
    have a4 : x * (T c + F c) ≤ T c * k := by
      calc x * (T c + F c) ≤ x * (T c' + F c' + 1) := Nat.mul_le_mul_left _ hle
        _ = x * F c' + (T c' + 1) * x := by ring
        _ ≤ (n * (T c' + 1)) * F c' + (T c' + 1) * x := Nat.add_le_add_right (Nat.mul_le_mul_right _ a3) _
        _ = (T c' + 1) * (x + n * F c') := by ring
        _ ≤ T c * k := Nat.mul_le_mul (by omega) a2
    exact_mod_cast a4

end

/-- With different scores, each threshold counts at most one prediction more than a threshold right above it. -/
theorem counts_step (e : Built) (hH : HistoryOk e.calls.flatten) (hS : SizesOk (Loader.init.addAll e.calls)) (hD : DistinctLabels e.calls.flatten)
    {v : String} (hd : DifferentScores v e.calls.flatten) (t : Rat) {c : Rat} (hc : EPSILON < c) :
    ∃ c', c < c' ∧ e.tp t c v + e.fp t c v ≤ e.tp t c' v + e.fp t c' v + 1 := by
  obtain ⟨c', h1, h2⟩ := gap (e.chunks.flatten.map (fun r => r.row.score)) c
  refine ⟨c', h1, ?_⟩
  have hone := rows_different e hH hD hS hd hc
  unfold Built.tp Built.fp
  rw [C28_tp_fp, C28_tp_fp]
  have hg : ∀ r ∈ e.chunks.flatten, c < r.row.score → c' ≤ r.row.score := fun r hr => h2 _ (List.mem_map.2 ⟨r, hr, rfl⟩)
  refine le_trans ?_ (Nat.add_le_add_left hone _)
  clear hone h2
  revert hg
  generalize e.chunks.flatten = R
  intro hg
  induction R with
  | nil => simp
  | cons r R ih =>
    have ih := ih (fun x hx => hg x (List.mem_cons_of_mem _ hx))
    simp only [List.filter_cons]
    by_cases b : Active c (labelId e.calls v) r
    · rw [if_pos (decide_eq_true b), List.length_cons]
      rcases lt_or_eq_of_le b.2.1 with hlt | heq
      · have : Active c' (labelId e.calls v) r := ⟨b.1, hg r List.mem_cons_self hlt, b.2.2⟩
        rw [if_pos (decide_eq_true this), List.length_cons]
        split <;> (try simp only [List.length_cons]) <;> omega
      · rw [if_pos (c := decide (r.row.pl = labelId e.calls v ∧ r.row.score = c) = true) (decide_eq_true ⟨b.1, heq.symm⟩), List.length_cons]
        split <;> (try simp only [List.length_cons]) <;> omega
    · rw [if_neg (by simpa using b)]
      split <;> split <;> (try simp only [List.length_cons]) <;> omega

/-- The full statement of C105 about average precision. -/
def ApOfCopies : Prop :=
  ∀ (whole e : Built) (n : Nat), 0 < n → whole.calls.flatten.Perm (List.replicate n e.calls.flatten).flatten → HistoryOk whole.calls.flatten →
    SizesOk (Loader.init.addAll whole.calls) → DistinctLabels whole.calls.flatten → ∀ (t : Rat) (v : String), 0 < t → whole.ap t v = e.ap t v

/-- **C105 (detection), partial.** A dataset in which every detection is repeated `n` times, added in any order and stored in any way, has the
precision-recall curves and average precisions of the dataset, for every label to which no two predictions of the dataset give the same
score. Missing: equal scores, for which it is false (`C105_ap_violation`). -/
theorem C105_ap_partial (whole e : Built) {n : Nat} (hn : 0 < n) (hp : whole.calls.flatten.Perm (List.replicate n e.calls.flatten).flatten)
    (hH : HistoryOk whole.calls.flatten) (hS : SizesOk (Loader.init.addAll whole.calls)) (hD : DistinctLabels whole.calls.flatten) {t : Rat} (ht : 0 < t)
    {v : String} (hd : DifferentScores v e.calls.flatten) :
    whole.curve t v = e.curve t v ∧ whole.ap t v = e.ap t v := by
  have hmem : ∀ x, x ∈ e.calls.flatten → x ∈ whole.calls.flatten := by
    intro x hx
    rw [hp.mem_iff, List.mem_flatten]
    exact ⟨_, List.mem_replicate.2 ⟨hn.ne', rfl⟩, hx⟩
  obtain ⟨hH', hS'⟩ := shard_ok (whole := whole) (shards := List.replicate n e) (by rw [List.map_replicate]; exact hp) hH hS (e := e) (List.mem_replicate.2 ⟨hn.ne', rfl⟩)
  have hD' : DistinctLabels e.calls.flatten := fun x hx => hD x (hmem x hx)
  have hcount := fun s => C84_detection_counts whole (List.replicate n e) (by rw [List.map_replicate]; exact hp) hH hS t s v
  simp only [List.map_replicate, List.sum_replicate, smul_eq_mul] at hcount
  obtain ⟨a1, a2, _⟩ := curve_mean e hH' hS' ht v
  obtain ⟨b1, b2, n2⟩ := curve_mean whole hH hS ht v
  have n1 := (curve_mean e hH' hS' ht v).2.2
  obtain ⟨_, _, a3⟩ := C92_curve_partial e hH' hS' hD' ht hd
  have hcop := C84_detection_copies whole e hn hp hH hS t
  have : whole.curve t v = e.curve t v := by
    apply List.ext_getElem (by rw [a1, b1])
    intro j h1 h2
    apply le_antisymm
    · rcases curve_copied (built_cache whole hH hS) whole.ranked ht (labelId whole.calls v) whole.chunks rfl hn
        (T := fun s => e.tp t s v) (F := fun s => e.fp t s v) (fun s => (hcount s).2.1) (fun s => (hcount s).2.2.1) (hcount 0).1
        (fun c hc => counts_step e hH' hS' hD' hd t hc) j h1 with h0 | ⟨s, _, hr, hw⟩
      · refine le_trans (le_of_eq h0) (n1 _ (List.getElem_mem h2)).1
      · exact le_trans hw (C92_above e hH' hS' ht v s j h2 hr)
    · rcases (a3 j h2).2 with h0 | ⟨s, _, hr, hw⟩
      · rw [h0]; exact (n2 _ (List.getElem_mem h1)).1
      · rw [hw, ← (hcop s v).1]
        exact C92_above whole hH hS ht v s j h1 (by rw [(hcop s v).2.1]; exact hr)
  exact ⟨this, by rw [a2, b2, this]⟩

/-- The scores of the precision-recall curve of label `v` at IoU threshold `t`. -/
def Built.scoreCurve (e : Built) (t : Rat) (v : String) : List Rat := interpolated (curveOf t (e.gt v) (labelId e.calls v) e.chunks).score

/-- **C105 (scores of the curve).** The scores that are reported along the curve at the recall levels above 0 are those of the dataset, also if
predictions have equal scores. -/
theorem C105_scores (whole e : Built) {n : Nat} (hn : 0 < n) (hp : whole.calls.flatten.Perm (List.replicate n e.calls.flatten).flatten)
    (hH : HistoryOk whole.calls.flatten) (hS : SizesOk (Loader.init.addAll whole.calls)) {t : Rat} (ht : 0 < t) {v : String} (hv : 0 < e.gt v) :
    (whole.scoreCurve t v).length = 101 ∧ (whole.scoreCurve t v).tail = (e.scoreCurve t v).tail := by
  obtain ⟨hH', hS'⟩ := shard_ok (whole := whole) (shards := List.replicate n e) (by rw [List.map_replicate]; exact hp) hH hS (e := e)
    (List.mem_replicate.2 ⟨hn.ne', rfl⟩)
  have hcop := C84_detection_copies whole e hn hp hH hS t
  have hv' : 0 < whole.gt v := by
    have := (C84_detection_counts whole (List.replicate n e) (by rw [List.map_replicate]; exact hp) hH hS t 0 v).1
    rw [List.map_replicate, List.sum_replicate, smul_eq_mul] at this
    rw [this]
    exact Nat.mul_pos hn hv
  obtain ⟨a1, a2⟩ := C61_score_curve (built_cache e hH' hS') e.ranked rfl ht hv
  obtain ⟨b1, b2⟩ := C61_score_curve (built_cache whole hH hS) whole.ranked rfl ht hv'
  have hrec : ∀ s, recallAt (rowsIn whole.tables) whole.chunks t s (labelId whole.calls v) = recallAt (rowsIn e.tables) e.chunks t s (labelId e.calls v) :=
    fun s => (hcop s v).2.1
  change (whole.scoreCurve t v).length = 101 at b1
  change (e.scoreCurve t v).length = 101 at a1
  change ∀ j, 1 ≤ j → ∀ hj : j < (whole.scoreCurve t v).length,
      (∀ s, (whole.scoreCurve t v)[j] < s → recallAt (rowsIn whole.tables) whole.chunks t s (labelId whole.calls v) < (j : Rat) / 100) ∧
      ((EPSILON < (whole.scoreCurve t v)[j] ∧
        (j : Rat) / 100 ≤ recallAt (rowsIn whole.tables) whole.chunks t (whole.scoreCurve t v)[j] (labelId whole.calls v)) ∨ (whole.scoreCurve t v)[j] = 0) at b2
  change ∀ j, 1 ≤ j → ∀ hj : j < (e.scoreCurve t v).length,
      (∀ s, (e.scoreCurve t v)[j] < s → recallAt (rowsIn e.tables) e.chunks t s (labelId e.calls v) < (j : Rat) / 100) ∧
      ((EPSILON < (e.scoreCurve t v)[j] ∧
        (j : Rat) / 100 ≤ recallAt (rowsIn e.tables) e.chunks t (e.scoreCurve t v)[j] (labelId e.calls v)) ∨ (e.scoreCurve t v)[j] = 0) at a2
  refine ⟨b1, ?_⟩
  have h0 : (0 : Rat) < EPSILON := by unfold EPSILON; norm_num
  apply List.ext_getElem (by simp [a1, b1])
  intro j h1 h2
  rw [List.getElem_tail, List.getElem_tail]
  rw [List.length_tail] at h1 h2
  obtain ⟨c1, c2⟩ := a2 (j + 1) (by omega) (by omega)
  obtain ⟨d1, d2⟩ := b2 (j + 1) (by omega) (by omega)
  simp only [hrec] at d1 d2
  generalize (whole.scoreCurve t v)[j + 1] = x at *
  generalize (e.scoreCurve t v)[j + 1] = y at *
  rcases lt_trichotomy x y with h | h | h
  · rcases c2 with ⟨_, q⟩ | q
    · exact absurd (d1 y h) (not_lt.2 q)
    · rcases d2 with ⟨q', _⟩ | q'
      · linarith
      · rw [q, q']
  · exact h
  · rcases d2 with ⟨_, q⟩ | q
    · exact absurd (c1 x h) (not_lt.2 q)
    · rcases c2 with ⟨q', _⟩ | q'
      · linarith
      · rw [q, q']

/-! ## Equal scores -/

/-- One cat, found by two predictions with the same score and the same IoU. -/
def doubleCat : Det × (Nat → Nat → Rat) :=
  (⟨"A", [⟨"g", ["cat"], [], ""⟩], [⟨"p", ["cat"], [9 / 10], ""⟩, ⟨"q", ["cat"], [9 / 10], ""⟩], ""⟩, fun _ _ => 6 / 10)

theorem doubleCat_ok (n : Nat) : HistoryOk [List.replicate n doubleCat].flatten ∧ DistinctLabels [List.replicate n doubleCat].flatten := by
  have key : ∀ x, x ∈ [List.replicate n doubleCat].flatten → x = doubleCat := by
    intro x hx
    rw [List.flatten_singleton] at hx
    exact (List.mem_replicate.1 hx).2
  refine ⟨⟨?_, ?_, ?_⟩, ?_⟩
  · intro x hx
    rw [key x hx]
    simp [doubleCat]
  · intro x hx
    rw [key x hx]
    simp [doubleCat]
  · intro x hx p g
    rw [key x hx]
    norm_num [doubleCat]
  · intro x hx
    rw [key x hx]
    simp [doubleCat]

theorem doubleCat_once : ∃ e : Built, e.calls = [[doubleCat]] ∧ e.ap (1 / 2) "cat" = 1 := by
  refine ⟨⟨[[doubleCat]], [(Loader.init.addAll [[doubleCat]]).rows.flatten], [_], ?_, by rw [List.flatten_singleton]; exact rankedOf_mem _⟩, rfl, ?_⟩
  · have := storedSorted_mem (Loader.init.addAll [[doubleCat]]).rows
    have e : (Loader.init.addAll [[doubleCat]]).rows.flatten = sortBy fKey (Loader.init.addAll [[doubleCat]]).rows.flatten := by
      unfold sortBy
      rw [List.mergeSort_of_pairwise]
      decide +kernel
    rw [← e] at this
    exact this
  · unfold Built.ap Built.gt
    dsimp only
    rw [rankTable_sorted_rows (by decide +kernel)]
    decide +kernel

theorem doubleCat_twice : ∃ e : Built, e.calls = [[doubleCat, doubleCat]] ∧ e.ap (1 / 2) "cat" = (51 + 50 * (2 / 3)) / 101 := by
  refine ⟨⟨[[doubleCat, doubleCat]], [(Loader.init.addAll [[doubleCat, doubleCat]]).rows.flatten], [_], ?_, by rw [List.flatten_singleton]; exact rankedOf_mem _⟩, rfl, ?_⟩
  · have := storedSorted_mem (Loader.init.addAll [[doubleCat, doubleCat]]).rows
    have e : (Loader.init.addAll [[doubleCat, doubleCat]]).rows.flatten = sortBy fKey (Loader.init.addAll [[doubleCat, doubleCat]]).rows.flatten := by
      unfold sortBy
      rw [List.mergeSort_of_pairwise]
      decide +kernel
    rw [← e] at this
    exact this
  · unfold Built.ap Built.gt
    dsimp only
    rw [rankTable_sorted_rows (by decide +kernel)]
    decide +kernel

/-- **C105 is false of the code for average precision with equal scores**: a cat is found by two predictions with the same score and IoU, so one
of them is a false positive; the average precision is 1. Adding the detection twice ranks them hit, miss, hit, miss, and the second
cat is reached with precision 2/3. -/
theorem C105_ap_violation : ¬ ApOfCopies := by
  intro h
  obtain ⟨e, he, hap⟩ := doubleCat_once
  obtain ⟨w, hw, hap'⟩ := doubleCat_twice
  have := h w e 2 (by norm_num) (by rw [hw, he]; exact List.Perm.refl _) (hw ▸ (doubleCat_ok 2).1)
    (hw ▸ ⟨by decide +kernel, by decide +kernel, by decide +kernel, by decide +kernel⟩) (hw ▸ (doubleCat_ok 2).2) (1 / 2) "cat" (by norm_num)
  rw [hap, hap'] at this
  norm_num at this

/-- The hypotheses hold: three copies of a dataset with two cats at different scores. -/
example : ∃ whole e : Built, whole.calls.flatten.Perm (List.replicate 3 e.calls.flatten).flatten ∧ HistoryOk whole.calls.flatten ∧
    SizesOk (Loader.init.addAll whole.calls) ∧ DistinctLabels whole.calls.flatten ∧ DifferentScores "cat" e.calls.flatten ∧
    allScores "cat" e.calls.flatten = [9 / 10, 7 / 10] := by
  obtain ⟨w, hw⟩ := built_exists (List.replicate 3 twoKinds).flatten
  obtain ⟨e, he⟩ := built_exists twoKinds
  have hf : (List.replicate 3 twoKinds).flatten.flatten = (List.replicate 3 twoKinds.flatten).flatten := by
    simp [List.replicate_succ]
  have hm : ∀ x, x ∈ (List.replicate 3 twoKinds.flatten).flatten → x ∈ twoKinds.flatten := by
    intro x hx
    obtain ⟨y, hy, hx⟩ := List.mem_flatten.1 hx
    rwa [(List.mem_replicate.1 hy).2] at hx
  refine ⟨w, e, by rw [hw, he, hf], ?_, ?_, ?_, ?_, ?_⟩
  · rw [hw, hf]; exact historyOk_sub kinds_ok.1 hm
  · rw [hw]; exact ⟨by decide +kernel, by decide +kernel, by decide +kernel, by decide +kernel⟩
  · rw [hw, hf]; exact fun x hx => distinct_of_one kinds_ok.2.1 x (hm x hx)
  · rw [he]; unfold DifferentScores; decide +kernel
  · rw [he]; decide +kernel

end Verif.Detection
