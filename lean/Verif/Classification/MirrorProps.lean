import Verif.Classification.SharperProps

/-!
# C121: ROC areas of complementary scores (`classification/computation.py` 9-90)
-/

namespace Verif.Classification

/-! ## Specification -/

/-- `φ` turns the order of the scores around. -/
def Reverses (φ : Rat → Rat) (S : List Rat) : Prop := ∀ x ∈ S, ∀ y ∈ S, x < y → φ y < φ x

/-- A dataset of two classes: every ground truth is one of the two labels, both labels are scored, and the score of the second is a function of the
score of the first (for instance `1 - s`). -/
def TwoClasses (φ : Rat → Rat) (a b : String) (H : List Classif) : Prop :=
  a ≠ b ∧ ∀ c ∈ H, (c.gt = a ∨ c.gt = b) ∧ ∃ s, givenScore c a = some s ∧ givenScore c b = some (φ s)

/-! ## The statistic -/

theorem sum_exchange (A B : List Rat) (f : Rat → Rat → Rat) :
    (A.map (fun a => (B.map (fun b => f a b)).sum)).sum = (B.map (fun b => (A.map (fun a => f a b)).sum)).sum := by
  induction A with
  | nil => simp
  | cons a A ih => simp only [List.map_cons, List.sum_cons, ih, List.sum_map_add]

/-- One pair of scores: how much the first is above the second. -/
def wins (p n : Rat) : Rat := if n < p then 1 else if p = n then 1 / 2 else 0

theorem wins_swap (p n : Rat) : wins n p = 1 - wins p n := by
  unfold wins
  rcases lt_trichotomy p n with h | h | h
  · rw [if_pos h, if_neg (not_lt.2 h.le), if_neg h.ne]; norm_num
  · subst h
    simp only [lt_irrefl, if_false, if_true]
    norm_num
  · rw [if_neg (not_lt.2 h.le), if_neg h.ne, if_pos h]; norm_num

theorem mannWhitney_wins (P N : List Rat) : mannWhitney P N = (N.map (fun n => (P.map (fun p => wins p n)).sum)).sum / (P.length * N.length) := rfl

theorem wins_reversed {φ : Rat → Rat} {S : List Rat} (h : Reverses φ S) {x y : Rat} (hx : x ∈ S) (hy : y ∈ S) : wins (φ x) (φ y) = wins y x := by
  unfold wins
  rcases lt_trichotomy x y with q | q | q
  · have := h x hx y hy q
    rw [if_pos this, if_pos q]
  · subst q
    simp
  · have := h y hy x hx q
    rw [if_neg (not_lt.2 this.le), if_neg this.ne, if_neg (not_lt.2 q.le), if_neg q.ne]

/-- Reversed scores with exchanged sides have the same statistic. -/
theorem mannWhitney_exchanged {φ : Rat → Rat} {P N : List Rat} (h : Reverses φ (P ++ N)) : mannWhitney (N.map φ) (P.map φ) = mannWhitney P N := by
  rw [mannWhitney_wins, mannWhitney_wins, sum_exchange N P (fun n p => wins p n), List.length_map, List.length_map, List.map_map, mul_comm]
  congr 2
  apply List.map_congr_left
  intro p hp
  simp only [Function.comp_apply, List.map_map]
  congr 1
  apply List.map_congr_left
  intro n hn
  exact wins_reversed h (List.mem_append_right _ hn) (List.mem_append_left _ hp)

/-- Exchanged sides have the complementary statistic. -/
theorem mannWhitney_swap {P N : List Rat} (hP : P ≠ []) (hN : N ≠ []) : mannWhitney N P = 1 - mannWhitney P N := by
  have hp : (0 : Rat) < P.length := Nat.cast_pos.2 (List.length_pos_iff.2 hP)
  have hn : (0 : Rat) < N.length := Nat.cast_pos.2 (List.length_pos_iff.2 hN)
  rw [mannWhitney_wins, mannWhitney_wins, sum_exchange P N (fun p n => wins n p)]
  have e : (N.map (fun n => (P.map (fun p => wins n p)).sum)).sum = P.length * N.length - (N.map (fun n => (P.map (fun p => wins p n)).sum)).sum := by
    have inner : ∀ n, (P.map (fun p => wins n p)).sum = P.length - (P.map (fun p => wins p n)).sum := by
      intro n
      induction P with
      | nil => simp
      | cons p P ih =>
        by_cases hP' : P = []
        · subst hP'
          simp [wins_swap p n]
        · have := ih hP' (Nat.cast_pos.2 (List.length_pos_iff.2 hP'))
          simp only [List.map_cons, List.sum_cons, List.length_cons, this, wins_swap p n]
          push_cast
          ring
    simp only [inner]
    clear hN hn
    induction N with
    | nil => simp
    | cons n N ih =>
      simp only [List.map_cons, List.sum_cons, List.length_cons, ih]
      push_cast
      ring
  rw [e]
  field_simp

/-! ## Theorems -/

theorem area_statistic {calls : List (List Classif)} {l : String} (r : RocRun calls l) (hnd : ∀ c ∈ history calls, c.preds.Nodup)
    (hl : ∀ c ∈ history calls, c.gt = l → l ∈ c.preds) : r.area = mannWhitney (positives (history calls) l) (negatives (history calls) l) :=
  C21_either_partial calls r.valid hnd hl r.top_mem r.top_ne r.top_max r.stored r.rows r.sorted r.curve r.cuts

theorem given_mem {c : Classif} {l : String} {s : Rat} (h : givenScore c l = some s) : l ∈ c.preds := by
  unfold givenScore at h
  rw [List.lookup_eq_some_iff] at h
  obtain ⟨l1, l2, he, _⟩ := h
  have : (l, s) ∈ c.preds.zip c.scores := by rw [he]; simp
  exact (List.of_mem_zip this).1

theorem twoClasses_scores {φ : Rat → Rat} {a b : String} {H : List Classif} (h : TwoClasses φ a b H) :
    positives H b = (negatives H a).map φ ∧ negatives H b = (positives H a).map φ := by
  obtain ⟨hab, h⟩ := h
  unfold positives negatives
  induction H with
  | nil => simp
  | cons c H ih =>
    obtain ⟨i1, i2⟩ := ih (fun d hd => h d (List.mem_cons_of_mem _ hd))
    obtain ⟨hg, s, s1, s2⟩ := h c List.mem_cons_self
    rcases hg with hg | hg
    · have hb : c.gt ≠ b := by rw [hg]; exact hab
      simp [hg, hab, s1, s2, i1, i2]
    · have ha : c.gt ≠ a := by rw [hg]; exact hab.symm
      simp [hg, hab.symm, s1, s2, i1, i2]

/-- **C121 (two classes), partial.** In a dataset of two classes in which the score of one label falls as the score of the other rises, both labels have
the same ROC area, whatever the storage of the rows and of the curve. Missing: a label whose scores are all 0 (`C121_violation`), curves cut right after the
first row of a label (`C22_cut_violation`). -/
theorem C121_two_classes_partial {calls : List (List Classif)} {a b : String} (r : RocRun calls a) (r' : RocRun calls b) {φ : Rat → Rat}
    (hnd : ∀ c ∈ history calls, c.preds.Nodup) (h2 : TwoClasses φ a b (history calls))
    (hφ : Reverses φ (positives (history calls) a ++ negatives (history calls) a)) : r'.area = r.area := by
  obtain ⟨e1, e2⟩ := twoClasses_scores h2
  rw [area_statistic r hnd, area_statistic r' hnd, e1, e2, mannWhitney_exchanged hφ]
  · intro c hc _
    obtain ⟨_, s, _, s2⟩ := h2.2 c hc
    exact given_mem s2
  · intro c hc _
    obtain ⟨_, s, s1, _⟩ := h2.2 c hc
    exact given_mem s1

/-- **C121 (reversed scores), partial.** If all scores are put on a scale that turns their order around, the area of a label with positive and negative
datums becomes the complement to 1. Missing: as in `C121_two_classes_partial`. -/
theorem C121_reversed_partial {calls calls' : List (List Classif)} {l : String} (r : RocRun calls l) (r' : RocRun calls' l) {φ : Rat → Rat}
    (h : (history calls').Perm ((history calls).map (fun c => { c with scores := c.scores.map φ })))
    (hnd : ∀ c ∈ history calls, c.preds.Nodup) (hl : ∀ c ∈ history calls, c.gt = l → l ∈ c.preds)
    (hφ : Reverses φ (positives (history calls) l ++ negatives (history calls) l))
    (hp : positives (history calls) l ≠ []) (hn : negatives (history calls) l ≠ []) : r'.area = 1 - r.area := by
  obtain ⟨p1, p2⟩ := positives_mapped φ (history calls) l
  have hP : (positives (history calls') l).Perm ((positives (history calls) l).map φ) := by
    rw [← p1]
    exact (List.Perm.filter _ h).filterMap _
  have hN : (negatives (history calls') l).Perm ((negatives (history calls) l).map φ) := by
    rw [← p2]
    exact (List.Perm.filter _ h).filterMap _
  have hback : ∀ c' ∈ history calls', ∃ c ∈ history calls, c'.gt = c.gt ∧ c'.preds = c.preds := by
    intro c' hc'
    obtain ⟨c, hc, rfl⟩ := List.mem_map.1 (h.mem_iff.1 hc')
    exact ⟨c, hc, rfl, rfl⟩
  have hφ' : Reverses φ (negatives (history calls) l ++ positives (history calls) l) := by
    intro x hx y hy
    exact hφ x (by simpa [or_comm] using hx) y (by simpa [or_comm] using hy)
  rw [area_statistic r hnd hl, area_statistic r', mannWhitney_perm hP hN, mannWhitney_exchanged hφ', mannWhitney_swap hp hn]
  · intro c' hc'
    obtain ⟨c, hc, _, e2⟩ := hback c' hc'
    rw [e2]
    exact hnd c hc
  · intro c' hc' hgt
    obtain ⟨c, hc, e1, e2⟩ := hback c' hc'
    rw [e2]
    exact hl c hc (by rw [← e1]; exact hgt)

/-! ## Witnesses -/

/-- Two classes with complementary scores. -/
def complementary : List (List Classif) :=
  [[⟨"d0", "a", ["a", "b"], [3/4, 1/4], ""⟩, ⟨"d1", "b", ["a", "b"], [2/5, 3/5], ""⟩], [⟨"d2", "b", ["b", "a"], [1/4, 3/4], ""⟩]]

/-- A classifier that is always sure of the first class. -/
def sure : List (List Classif) :=
  [[⟨"d0", "a", ["a", "b"], [1, 0], ""⟩, ⟨"d1", "b", ["a", "b"], [1, 0], ""⟩]]

/-- The full statement: complementary scores give both labels the same area. -/
def SameArea : Prop :=
  ∀ (calls : List (List Classif)) (a b : String), (∀ c ∈ calls.flatten, c.valid = true) → (∀ c ∈ history calls, c.preds.Nodup) →
    TwoClasses (fun s => 1 - s) a b (history calls) → pipeline calls (fun r => [r]) a = pipeline calls (fun r => [r]) b

theorem sure_two : TwoClasses (fun s => 1 - s) "a" "b" (history sure) := by
  refine ⟨by decide, ?_⟩
  have : history sure = [⟨"d0", "a", ["a", "b"], [1, 0], ""⟩, ⟨"d1", "b", ["a", "b"], [1, 0], ""⟩] := by decide +kernel
  rw [this]
  intro c hc
  simp only [List.mem_cons, List.not_mem_nil, or_false] at hc
  rcases hc with rfl | rfl
  · exact ⟨Or.inl rfl, 1, by decide +kernel, by decide +kernel⟩
  · exact ⟨Or.inr rfl, 1, by decide +kernel, by decide +kernel⟩

/-- **C121 is false of the code for a label that always scores 0**: the classifier gives the first class 1 and the second 0 for both datums. The area of the
first is 1/2, that of the second is 0. -/
theorem C121_violation : ¬ SameArea := by
  intro h
  have := h sure "a" "b" (by decide +kernel) (by decide +kernel) sure_two
  revert this
  decide +kernel

/-- The computation over one table in memory and one table of the curve. -/
def oneRun (calls : List (List Classif)) (l : String) (valid : ∀ c ∈ calls.flatten, c.valid = true) (top : Rat)
    (h1 : top ∈ positives (history calls) l ++ negatives (history calls) l) (h2 : top ≠ 0)
    (h3 : ∀ s ∈ positives (history calls) l ++ negatives (history calls) l, s ≤ top) : RocRun calls l where
  valid := valid
  top := top
  top_mem := h1
  top_ne := h2
  top_max := h3
  frags := [(Loader.init.addAll calls).rows.flatten]
  stored := ⟨by simp, by simp⟩
  tables := [((Loader.init.addAll calls).rows.flatten.map irow).insertionSort (fun a b => b.score ≤ a.score)]
  rows := by
    simp only [List.flatten_cons, List.flatten_nil, List.append_nil]
    exact List.perm_insertionSort _ _
  sorted := by
    simp only [List.flatten_cons, List.flatten_nil, List.append_nil]
    have : Std.Total (fun a b : IRow => b.score ≤ a.score) := ⟨fun a b => le_total _ _⟩
    have : IsTrans IRow (fun a b : IRow => b.score ≤ a.score) := ⟨fun a b c h1 h2 => le_trans h2 h1⟩
    exact List.pairwise_insertionSort _ _
  chunks := [rocCurve (List.range (Loader.init.addAll calls).labels.length) (Loader.init.addAll calls).labels.length
    [((Loader.init.addAll calls).rows.flatten.map irow).insertionSort (fun a b => b.score ≤ a.score)]]
  curve := by simp
  cuts := by
    left
    intro a b hab hb
    cases a with
    | nil => simp
    | cons x xs =>
      simp only [List.cons_append, List.cons.injEq] at hab
      exact absurd (List.append_eq_nil_iff.1 hab.2.symm).2 hb

/-- The hypotheses of C121 hold for `complementary`; both areas are 3/4. -/
example : ∃ (r : RocRun complementary "a") (r' : RocRun complementary "b"), (∀ c ∈ history complementary, c.preds.Nodup) ∧
    TwoClasses (fun s => 1 - s) "a" "b" (history complementary) ∧
    Reverses (fun s => 1 - s) (positives (history complementary) "a" ++ negatives (history complementary) "a") ∧
    r'.area = r.area ∧ pipeline complementary (fun r => [r]) "a" = 3 / 4 ∧ pipeline complementary (fun r => [r]) "b" = 3 / 4 := by
  have h2 : TwoClasses (fun s => 1 - s) "a" "b" (history complementary) := by
    refine ⟨by decide, ?_⟩
    have : history complementary = [⟨"d0", "a", ["a", "b"], [3/4, 1/4], ""⟩, ⟨"d1", "b", ["a", "b"], [2/5, 3/5], ""⟩,
      ⟨"d2", "b", ["b", "a"], [1/4, 3/4], ""⟩] := by decide +kernel
    rw [this]
    intro c hc
    simp only [List.mem_cons, List.not_mem_nil, or_false] at hc
    rcases hc with rfl | rfl | rfl
    · exact ⟨Or.inl rfl, 3/4, by decide +kernel, by decide +kernel⟩
    · exact ⟨Or.inr rfl, 2/5, by decide +kernel, by decide +kernel⟩
    · exact ⟨Or.inr rfl, 3/4, by decide +kernel, by decide +kernel⟩
  have h3 : Reverses (fun s => 1 - s) (positives (history complementary) "a" ++ negatives (history complementary) "a") := by
    intro x _ y _ h
    show 1 - y < 1 - x
    linarith
  have hn : ∀ c ∈ history complementary, c.preds.Nodup := by decide +kernel
  let r := oneRun complementary "a" (by decide +kernel) (3 / 4) (by decide +kernel) (by norm_num) (by decide +kernel)
  let r' := oneRun complementary "b" (by decide +kernel) (3 / 5) (by decide +kernel) (by norm_num) (by decide +kernel)
  exact ⟨r, r', hn, h2, h3, C121_two_classes_partial r r' hn h2 h3, by decide +kernel, by decide +kernel⟩

/-- The hypotheses of the second theorem hold for `complementary` and its reversed scores; the area falls from 3/4 to 1/4. -/
example : ∃ calls', history calls' = (history complementary).map (fun c => { c with scores := c.scores.map (fun s => 1 - s) }) ∧
    positives (history complementary) "a" ≠ [] ∧ negatives (history complementary) "a" ≠ [] ∧ pipeline calls' (fun r => [r]) "a" = 1 / 4 :=
  ⟨complementary.map (fun l => l.map (fun c => { c with scores := c.scores.map (fun s => 1 - s) })), by decide +kernel, by decide +kernel, by decide +kernel,
    by decide +kernel⟩

end Verif.Classification
