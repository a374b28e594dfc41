import Verif.Classification.MirrorProps
import Verif.Classification.OneMoreProps

/-! # C132: one more datum and the ROC area (`classification/computation.py` 9-90) -/

namespace Verif.Classification

/-! ## Specification -/

/-- The part of the scores that `s` is above, equal ones counting one half. -/
def partAbove (s : Rat) (N : List Rat) : Rat := ((N.countP (fun n => decide (n < s)) : Rat) + (N.countP (fun n => decide (n = s)) : Rat) / 2) / N.length

/-- The part of the scores that are above `s`, equal ones counting one half. -/
def partBelow (s : Rat) (P : List Rat) : Rat := ((P.countP (fun p => decide (s < p)) : Rat) + (P.countP (fun p => decide (p = s)) : Rat) / 2) / P.length

/-! ## The statistic -/

theorem sum_wins_below (s : Rat) (N : List Rat) :
    (N.map (fun n => wins s n)).sum = (N.countP (fun n => decide (n < s)) : Rat) + (N.countP (fun n => decide (n = s)) : Rat) / 2 := by
  induction N with
  | nil => simp
  | cons n N ih =>
    rw [List.map_cons, List.sum_cons, ih, List.countP_cons, List.countP_cons]
    unfold wins
    rcases lt_trichotomy n s with h | h | h
    · simp only [h, h.ne, decide_true, decide_false, if_true, Bool.false_eq_true, if_false]; push_cast; ring
    · subst h
      simp only [lt_irrefl, decide_true, decide_false, if_true, Bool.false_eq_true, if_false]; push_cast; ring
    · simp only [not_lt.2 h.le, h.ne, h.ne', decide_false, Bool.false_eq_true, if_false]; push_cast; ring

theorem sum_wins_above (s : Rat) (P : List Rat) :
    (P.map (fun p => wins p s)).sum = (P.countP (fun p => decide (s < p)) : Rat) + (P.countP (fun p => decide (p = s)) : Rat) / 2 := by
  induction P with
  | nil => simp
  | cons p P ih =>
    rw [List.map_cons, List.sum_cons, ih, List.countP_cons, List.countP_cons]
    unfold wins
    rcases lt_trichotomy s p with h | h | h
    · simp only [h, h.ne', decide_true, decide_false, if_true, Bool.false_eq_true, if_false]; push_cast; ring
    · subst h
      simp only [lt_irrefl, decide_true, decide_false, if_true, Bool.false_eq_true, if_false]; push_cast; ring
    · simp only [not_lt.2 h.le, h.ne, decide_false, Bool.false_eq_true, if_false]; push_cast; ring

theorem mannWhitney_cons (s : Rat) {P N : List Rat} (hP : P ≠ []) (hN : N ≠ []) :
    mannWhitney (s :: P) N * (P.length + 1) = mannWhitney P N * P.length + partAbove s N := by
  have hp : (0 : Rat) < P.length := Nat.cast_pos.2 (List.length_pos_iff.2 hP)
  have hn : (0 : Rat) < N.length := Nat.cast_pos.2 (List.length_pos_iff.2 hN)
  unfold partAbove
  rw [mannWhitney_wins, mannWhitney_wins, ← sum_wins_below]
  simp only [List.map_cons, List.sum_cons, List.sum_map_add, List.length_cons]
  push_cast
  have : (P.length : Rat) + 1 ≠ 0 := by linarith
  field_simp
  ring

theorem mannWhitney_cons' (s : Rat) {P N : List Rat} (hP : P ≠ []) (hN : N ≠ []) :
    mannWhitney P (s :: N) * (N.length + 1) = mannWhitney P N * N.length + partBelow s P := by
  have hp : (0 : Rat) < P.length := Nat.cast_pos.2 (List.length_pos_iff.2 hP)
  have hn : (0 : Rat) < N.length := Nat.cast_pos.2 (List.length_pos_iff.2 hN)
  unfold partBelow
  rw [mannWhitney_wins, mannWhitney_wins, ← sum_wins_above]
  simp only [List.map_cons, List.sum_cons, List.length_cons]
  push_cast
  have : (N.length : Rat) + 1 ≠ 0 := by linarith
  field_simp
  ring

theorem sum_in_range (l : List Rat) (f : Rat → Rat) (b : Rat) (h : ∀ x, 0 ≤ f x ∧ f x ≤ b) : 0 ≤ (l.map f).sum ∧ (l.map f).sum ≤ b * l.length := by
  induction l with
  | nil => simp
  | cons x l ih =>
    simp only [List.map_cons, List.sum_cons, List.length_cons]
    push_cast
    constructor
    · linarith [h x, ih.1]
    · linarith [h x, ih.2]

theorem mannWhitney_range (P N : List Rat) : 0 ≤ mannWhitney P N ∧ mannWhitney P N ≤ 1 := by
  have hw : ∀ p n, 0 ≤ wins p n ∧ wins p n ≤ 1 := by
    intro p n
    unfold wins
    split
    · norm_num
    · split <;> norm_num
  have h := sum_in_range N (fun n => (P.map (fun p => wins p n)).sum) P.length (fun n => by
    have := sum_in_range P (fun p => wins p n) 1 (fun p => hw p n)
    rwa [one_mul] at this)
  rw [mannWhitney_wins]
  exact ⟨div_nonneg h.1 (by positivity), div_le_one_of_le₀ h.2 (by positivity)⟩

theorem between_of_mean {x y z n : Rat} (hn : 0 ≤ n) (h : x * (n + 1) = y * n + z) : min y z ≤ x ∧ x ≤ max y z := by
  constructor
  · have h1 := mul_le_mul_of_nonneg_right (min_le_left y z) hn
    have h2 := min_le_right y z
    by_contra hc
    have := mul_lt_mul_of_pos_right (not_le.1 hc) (show (0 : Rat) < n + 1 by linarith)
    linarith
  · have h1 := mul_le_mul_of_nonneg_right (le_max_left y z) hn
    have h2 := le_max_right y z
    by_contra hc
    have := mul_lt_mul_of_pos_right (not_le.1 hc) (show (0 : Rat) < n + 1 by linarith)
    linarith

/-! ## Theorems -/

section

variable {calls calls' : List (List Classif)} {l : String} (r : RocRun calls l) (r' : RocRun calls' l) {c : Classif}
  (h : (history calls').Perm (c :: history calls)) (hnd : ∀ d ∈ history calls', d.preds.Nodup) (hl : ∀ d ∈ history calls', d.gt = l → l ∈ d.preds)

include h hnd hl in
theorem more_area : r.area = mannWhitney (positives (history calls) l) (negatives (history calls) l) ∧
    r'.area = mannWhitney (positives (c :: history calls) l) (negatives (c :: history calls) l) := by
  refine ⟨area_statistic r (fun d hd => hnd d (h.mem_iff.2 (List.mem_cons_of_mem _ hd))) (fun d hd => hl d (h.mem_iff.2 (List.mem_cons_of_mem _ hd))), ?_⟩
  rw [area_statistic r' hnd hl]
  exact mannWhitney_perm ((List.Perm.filter _ h).filterMap _) ((List.Perm.filter _ h).filterMap _)

include h hnd hl in
/-- **C132 (one more datum of the label), partial.** The ROC area of a label, after one more datum of the label was added anywhere with score `s`, is the mean
over the datums of the label, the new one weighing as much as each of the others, of the part of the other datums below it. So it lies between the old area
and the part of the other datums that score below `s`, and does not fall if all of them do. Missing: the cases in which the area is not the
statistic, see C21, C22 and C109. -/
theorem C132_positive_partial (hg : c.gt = l) {s : Rat} (hs : givenScore c l = some s) (hP : positives (history calls) l ≠ [])
    (hN : negatives (history calls) l ≠ []) :
    r'.area * ((positives (history calls) l).length + 1) = r.area * (positives (history calls) l).length + partAbove s (negatives (history calls) l) ∧
    min r.area (partAbove s (negatives (history calls) l)) ≤ r'.area ∧ r'.area ≤ max r.area (partAbove s (negatives (history calls) l)) := by
  obtain ⟨e1, e2⟩ := more_area r r' h hnd hl
  have p1 : positives (c :: history calls) l = s :: positives (history calls) l := by
    unfold positives
    rw [List.filter_cons_of_pos (by simpa using hg), List.filterMap_cons_some (f := fun c => givenScore c l) hs]
  have p2 : negatives (c :: history calls) l = negatives (history calls) l := by
    unfold negatives
    rw [List.filter_cons_of_neg (by simp [hg])]
  rw [p1, p2] at e2
  have := mannWhitney_cons s hP hN
  rw [← e1, ← e2] at this
  exact ⟨this, between_of_mean (Nat.cast_nonneg _) this⟩

include h hnd hl in
/-- **C132 (one more datum of another label), partial.** The same for a datum of another label, with the part of the datums of the label that score above it.
Missing: as in `C132_positive_partial`. -/
theorem C132_negative_partial (hg : c.gt ≠ l) {s : Rat} (hs : givenScore c l = some s) (hP : positives (history calls) l ≠ [])
    (hN : negatives (history calls) l ≠ []) :
    r'.area * ((negatives (history calls) l).length + 1) = r.area * (negatives (history calls) l).length + partBelow s (positives (history calls) l) ∧
    min r.area (partBelow s (positives (history calls) l)) ≤ r'.area ∧ r'.area ≤ max r.area (partBelow s (positives (history calls) l)) := by
  obtain ⟨e1, e2⟩ := more_area r r' h hnd hl
  have p1 : negatives (c :: history calls) l = s :: negatives (history calls) l := by
    unfold negatives
    rw [List.filter_cons_of_pos (by simpa using hg), List.filterMap_cons_some (f := fun c => givenScore c l) hs]
  have p2 : positives (c :: history calls) l = positives (history calls) l := by
    unfold positives
    rw [List.filter_cons_of_neg (by simp [hg])]
  rw [p1, p2] at e2
  have := mannWhitney_cons' s hP hN
  rw [← e1, ← e2] at this
  exact ⟨this, between_of_mean (Nat.cast_nonneg _) this⟩

include h hnd hl in
/-- **C132 (the best and the worst place), partial.** A datum of the label that scores above all other datums never lowers the area, and one that scores below
all of them never raises it. A datum of another label that scores below all datums of the label never lowers it, and one that scores above all
of them never raises it. Missing: as in `C132_positive_partial`. -/
theorem C132_extreme_partial {s : Rat} (hs : givenScore c l = some s) (hP : positives (history calls) l ≠ []) (hN : negatives (history calls) l ≠ []) :
    (c.gt = l → (∀ n ∈ negatives (history calls) l, n < s) → r.area ≤ r'.area) ∧ (c.gt = l → (∀ n ∈ negatives (history calls) l, s < n) → r'.area ≤ r.area) ∧
    (c.gt ≠ l → (∀ p ∈ positives (history calls) l, s < p) → r.area ≤ r'.area) ∧ (c.gt ≠ l → (∀ p ∈ positives (history calls) l, p < s) → r'.area ≤ r.area) := by
  have hle : r.area ≤ 1 ∧ 0 ≤ r.area := by
    rw [(more_area r r' h hnd hl).1]
    exact ⟨(mannWhitney_range _ _).2, (mannWhitney_range _ _).1⟩
  have one : ∀ (q : Rat → Bool) (N : List Rat), N ≠ [] → (∀ n ∈ N, q n = true) → (N.countP q : Rat) = N.length := by
    intro q N _ hq
    exact_mod_cast List.countP_eq_length.2 hq
  have zero : ∀ (q : Rat → Bool) (N : List Rat), (∀ n ∈ N, q n = false) → (N.countP q : Rat) = 0 := by
    intro q N hq
    exact_mod_cast List.countP_eq_zero.2 (fun n hn => by simp [hq n hn])
  have hnP : ((positives (history calls) l).length : Rat) ≠ 0 := by exact_mod_cast (List.length_pos_iff.2 hP).ne'
  have hnN : ((negatives (history calls) l).length : Rat) ≠ 0 := by exact_mod_cast (List.length_pos_iff.2 hN).ne'
  refine ⟨fun hg ha => ?_, fun hg ha => ?_, fun hg ha => ?_, fun hg ha => ?_⟩
  · have k := (C132_positive_partial r r' h hnd hl hg hs hP hN).2.1
    have e : partAbove s (negatives (history calls) l) = 1 := by
      unfold partAbove
      rw [one _ _ hN (fun n hn => by simpa using ha n hn), zero _ _ (fun n hn => by simpa using (ha n hn).ne)]
      simp [div_self hnN]
    rw [e, min_eq_left hle.1] at k
    exact k
  · have k := (C132_positive_partial r r' h hnd hl hg hs hP hN).2.2
    have e : partAbove s (negatives (history calls) l) = 0 := by
      unfold partAbove
      rw [zero _ _ (fun n hn => by simpa using (ha n hn).le), zero _ _ (fun n hn => by simpa using (ha n hn).ne')]
      simp
    rw [e, max_eq_left hle.2] at k
    exact k
  · have k := (C132_negative_partial r r' h hnd hl hg hs hP hN).2.1
    have e : partBelow s (positives (history calls) l) = 1 := by
      unfold partBelow
      rw [one _ _ hP (fun n hn => by simpa using ha n hn), zero _ _ (fun n hn => by simpa using (ha n hn).ne')]
      simp [div_self hnP]
    rw [e, min_eq_left hle.1] at k
    exact k
  · have k := (C132_negative_partial r r' h hnd hl hg hs hP hN).2.2
    have e : partBelow s (positives (history calls) l) = 0 := by
      unfold partBelow
      rw [zero _ _ (fun n hn => by simpa using (ha n hn).le), zero _ _ (fun n hn => by simpa using (ha n hn).ne)]
      simp
    rw [e, max_eq_left hle.2] at k
    exact k

include h hnd hl in
/-- **C132 (a datum without score), partial.** A datum of another label that does not score the label leaves the area as it is. Missing: as in
`C132_positive_partial`. -/
theorem C132_unscored_partial (hg : c.gt ≠ l) (hs : givenScore c l = none) : r'.area = r.area := by
  obtain ⟨e1, e2⟩ := more_area r r' h hnd hl
  rw [e1, e2]
  congr 1
  · unfold positives
    rw [List.filter_cons_of_neg (by simp [hg])]
  · unfold negatives
    rw [List.filter_cons_of_pos (by simpa using hg), List.filterMap_cons_none (f := fun c => givenScore c l) hs]

end

/-- `complementary` with one more datum of the label `a`, between the two others. -/
def oneMoreA : List (List Classif) := complementary ++ [[⟨"d3", "a", ["b", "a"], [1/2, 1/2], ""⟩]]

/-- The hypotheses hold for `complementary`: the area falls from 3/4 to 5/8, the mean of 3/4 and the part 1/2 above the third datum. -/
example : ∃ (_ : RocRun complementary "a") (_ : RocRun oneMoreA "a") (c : Classif), (history oneMoreA).Perm (c :: history complementary) ∧
    (∀ d ∈ history oneMoreA, d.preds.Nodup) ∧ (∀ d ∈ history oneMoreA, d.gt = "a" → "a" ∈ d.preds) ∧ c.gt = "a" ∧ givenScore c "a" = some (1 / 2) ∧
    positives (history complementary) "a" ≠ [] ∧ negatives (history complementary) "a" ≠ [] ∧
    pipeline complementary (fun r => [r]) "a" = 3 / 4 ∧ pipeline oneMoreA (fun r => [r]) "a" = 5 / 8 :=
  ⟨oneRun complementary "a" (by decide +kernel) (3 / 4) (by decide +kernel) (by norm_num) (by decide +kernel),
    oneRun oneMoreA "a" (by decide +kernel) (3 / 4) (by decide +kernel) (by norm_num) (by decide +kernel),
    ⟨"d3", "a", ["b", "a"], [1/2, 1/2], ""⟩, by decide +kernel, by decide +kernel, by decide +kernel, rfl, by decide +kernel, by decide +kernel,
    by decide +kernel, by decide +kernel, by decide +kernel⟩

/-- The full statement for a datum of the label that scores above all other datums. -/
def TopDatum : Prop :=
  ∀ (calls calls' : List (List Classif)) (l : String) (c : Classif) (s : Rat), (∀ d ∈ calls'.flatten, d.valid = true) →
    (history calls').Perm (c :: history calls) → (∀ d ∈ history calls', d.preds.Nodup) → c.gt = l → givenScore c l = some s →
    positives (history calls) l ≠ [] → negatives (history calls) l ≠ [] → (∀ n ∈ negatives (history calls) l, n < s) →
    pipeline calls' (fun r => [r]) l * ((positives (history calls) l).length + 1) =
      pipeline calls (fun r => [r]) l * (positives (history calls) l).length + 1

/-- **C132 is false of the code for a label that always scored 0**: the area 0 is reported for the label `b` of `sure`, although the two datums are
equal. With one more datum that scores 1 the area is 3/4, not 1/2. -/
theorem C132_violation : ¬ TopDatum := by
  intro h
  have := h sure (sure ++ [[⟨"d2", "b", ["a", "b"], [0, 1], ""⟩]]) "b" ⟨"d2", "b", ["a", "b"], [0, 1], ""⟩ 1 (by decide +kernel) (by decide +kernel)
    (by decide +kernel) rfl (by decide +kernel) (by decide +kernel) (by decide +kernel) (by decide +kernel)
  revert this
  decide +kernel

end Verif.Classification
