import Verif.Detection.OperatingPoints

/-!
# C92: precision-recall curve and average precision from the counts at the score thresholds
-/

namespace Verif.Detection

open Verif.Cache (sortBy)

/-- `w` is the best precision of a score threshold with recall at least `j / 100`, 0 if there is none. -/
def BestPrecision (e : Built) (t : Rat) (v : String) (j : Nat) (w : Rat) : Prop :=
  (∀ s, (j : Rat) / 100 ≤ recall (e.tp t s v) (e.gt v) → precision (e.tp t s v) (e.fp t s v) ≤ w) ∧
  (w = 0 ∨ ∃ s, EPSILON < s ∧ (j : Rat) / 100 ≤ recall (e.tp t s v) (e.gt v) ∧ w = precision (e.tp t s v) (e.fp t s v))

/-- The best precision is determined. -/
theorem best_unique {e e' : Built} {t : Rat} {v : String} {j : Nat} {w w' : Rat} (hg : e.gt v = e'.gt v) (ht : ∀ s, e.tp t s v = e'.tp t s v)
    (hf : ∀ s, e.fp t s v = e'.fp t s v) (hj : 0 ≤ w) (hj' : 0 ≤ w') (h : BestPrecision e t v j w) (h' : BestPrecision e' t v j w') : w = w' := by
  have one : ∀ {e e' : Built} {w w' : Rat}, e.gt v = e'.gt v → (∀ s, e.tp t s v = e'.tp t s v) → (∀ s, e.fp t s v = e'.fp t s v) → 0 ≤ w' →
      BestPrecision e t v j w → BestPrecision e' t v j w' → w ≤ w' := by
    intro e e' w w' hg ht hf hp h h'
    rcases h.2 with h0 | ⟨s, _, hr, hw⟩
    · rw [h0]; exact hp
    · rw [hw, ht, hf]
      apply h'.1
      rw [← ht, ← hg]
      exact hr
  exact le_antisymm (one hg ht hf hj' h h') (one hg.symm (fun s => (ht s).symm) (fun s => (hf s).symm) hj h' h)

section

variable (e : Built) (hH : HistoryOk e.calls.flatten) (hS : SizesOk (Loader.init.addAll e.calls)) {t : Rat} (ht : 0 < t) (v : String)

include hH hS in
theorem built_cache : CacheOk (rowsIn e.tables) := divides_ok (loader_divides e.stored) (loader_ok hH hS).1

include hH hS ht in
theorem curve_mean : (e.curve t v).length = 101 ∧ e.ap t v = (e.curve t v).sum / 101 ∧ ∀ w ∈ e.curve t v, 0 ≤ w ∧ w ≤ 1 := by
  have hb := hits_bound (built_cache e hH hS) e.ranked ht (labelId e.calls v) e.chunks rfl
  obtain ⟨h1, h2, h3⟩ := C29_interpolation t (e.gt v) (labelId e.calls v) e.chunks _ rfl hb
  refine ⟨h1, h3, ?_⟩
  intro w hw
  unfold Built.curve at hw
  obtain ⟨j, hj, rfl⟩ := List.getElem_of_mem hw
  rcases (h2 j hj).2 with ⟨q, _⟩ | ⟨k, _, q⟩
  · rw [q]; exact ⟨le_refl _, zero_le_one⟩
  · rw [q]; exact precisionAt_range _ k

include hH hS ht in
/-- **C92 (every operating point lies below the curve).** For every score threshold: the precision reported for it is at most the value of the
precision-recall curve at each recall level that the recall reported for it reaches. Predictions may have several labels and equal scores. -/
theorem C92_above (s : Rat) (j : Nat) (hj : j < (e.curve t v).length) (hr : (j : Rat) / 100 ≤ recall (e.tp t s v) (e.gt v)) :
    precision (e.tp t s v) (e.fp t s v) ≤ (e.curve t v)[j] :=
  curve_above (built_cache e hH hS) e.ranked ht (labelId e.calls v) e.chunks rfl s j hj hr

include hH hS ht in
/-- **C92 (average precision is at least ...).** The average precision is at least the precision of a score threshold times the part of the
recall levels that it reaches. -/
theorem C92_ap_above (s : Rat) (k : Nat) (hk : k ≤ 101) (hr : ∀ j < k, (j : Rat) / 100 ≤ recall (e.tp t s v) (e.gt v)) :
    precision (e.tp t s v) (e.fp t s v) * (k : Rat) / 101 ≤ e.ap t v := by
  obtain ⟨h1, h2, h3⟩ := curve_mean e hH hS ht v
  have hab := C92_above e hH hS ht v s
  rw [h2]
  apply div_le_div_of_nonneg_right _ (by norm_num)
  generalize e.curve t v = c at *
  generalize precision (e.tp t s v) (e.fp t s v) = w at *
  have hsum : ∀ (c : List Rat) (k : Nat), k ≤ c.length → (∀ x ∈ c, 0 ≤ x) → (∀ j (hj : j < c.length), j < k → w ≤ c[j]) → w * (k : Rat) ≤ c.sum := by
    intro c
    induction c with
    | nil => intro k hk _ _; have : k = 0 := by simpa using hk
             simp [this]
    | cons a c ih =>
      intro k hk hnn hle
      cases k with
      | zero =>
        simp only [Nat.cast_zero, mul_zero]
        exact List.sum_nonneg hnn
      | succ k =>
        rw [List.sum_cons]
        have a1 := hle 0 (by simp) (by omega)
        have a2 := ih k (by simpa using hk) (fun x hx => hnn x (List.mem_cons_of_mem _ hx)) (fun j hj hjk => by
          have := hle (j + 1) (by simpa using hj) (by omega)
          simpa using this)
        simp only [List.getElem_cons_zero] at a1
        push_cast
        linarith
  exact hsum c k (by omega) (fun x hx => (h3 x hx).1) (fun j hj hjk => hab j hj (hr j hjk))

end

/-- The full statement of C92: the curve is the best precision of the score thresholds. -/
def CurveFromThresholds : Prop :=
  ∀ e : Built, HistoryOk e.calls.flatten → SizesOk (Loader.init.addAll e.calls) → DistinctLabels e.calls.flatten → ∀ (t : Rat) (v : String), 0 < t →
    ∀ (j : Nat) (hj : j < (e.curve t v).length), BestPrecision e t v j (e.curve t v)[j]

/-- **C92 (partial).** If no two predictions give the label the same score, then the precision-recall curve is determined by the reported
counts: its value at recall level `j / 100` is the best precision among the score thresholds whose recall is at least that, and 0 if there
is none; the average precision is the mean of the 101 values. Missing: equal scores, for which it is false (`C92_violation`). -/
theorem C92_curve_partial (e : Built) (hH : HistoryOk e.calls.flatten) (hS : SizesOk (Loader.init.addAll e.calls)) (hD : DistinctLabels e.calls.flatten)
    {t : Rat} (ht : 0 < t) {v : String} (hd : DifferentScores v e.calls.flatten) :
    (e.curve t v).length = 101 ∧ e.ap t v = (e.curve t v).sum / 101 ∧
    ∀ (j : Nat) (hj : j < (e.curve t v).length), BestPrecision e t v j (e.curve t v)[j] := by
  obtain ⟨h1, h2, _⟩ := curve_mean e hH hS ht v
  refine ⟨h1, h2, ?_⟩
  intro j hj
  refine ⟨fun s hr => C92_above e hH hS ht v s j hj hr, ?_⟩
  exact curve_attained (built_cache e hH hS) e.ranked ht (labelId e.calls v) e.chunks rfl (fun c hc => rows_different e hH hD hS hd hc) j hj

/-- Curves with the same counts. -/
theorem curve_same (e e' : Built) (hH : HistoryOk e.calls.flatten) (hH' : HistoryOk e'.calls.flatten) (hS : SizesOk (Loader.init.addAll e.calls))
    (hS' : SizesOk (Loader.init.addAll e'.calls)) (hD : DistinctLabels e.calls.flatten) (hD' : DistinctLabels e'.calls.flatten) {t : Rat} (ht : 0 < t)
    {v : String} (hd : DifferentScores v e.calls.flatten) (hd' : DifferentScores v e'.calls.flatten) (hg : e.gt v = e'.gt v)
    (htp : ∀ s, e.tp t s v = e'.tp t s v) (hfp : ∀ s, e.fp t s v = e'.fp t s v) : e.curve t v = e'.curve t v ∧ e.ap t v = e'.ap t v := by
  obtain ⟨a1, a2, a3⟩ := C92_curve_partial e hH hS hD ht hd
  obtain ⟨b1, b2, b3⟩ := C92_curve_partial e' hH' hS' hD' ht hd'
  have n1 := (curve_mean e hH hS ht v).2.2
  have n2 := (curve_mean e' hH' hS' ht v).2.2
  have : e.curve t v = e'.curve t v := by
    apply List.ext_getElem (by rw [a1, b1])
    intro j h1 h2
    exact best_unique hg htp hfp (n1 _ (List.getElem_mem h1)).1 (n2 _ (List.getElem_mem h2)).1 (a3 j h1) (b3 j h2)
  exact ⟨this, by rw [a2, b2, this]⟩

/-- Curves with better operating points. -/
theorem curve_better (e e' : Built) (hH : HistoryOk e.calls.flatten) (hH' : HistoryOk e'.calls.flatten) (hS : SizesOk (Loader.init.addAll e.calls))
    (hS' : SizesOk (Loader.init.addAll e'.calls)) (hD : DistinctLabels e.calls.flatten) {t : Rat} (ht : 0 < t)
    {v : String} (hd : DifferentScores v e.calls.flatten)
    (hb : ∀ s, EPSILON < s → ∃ s', recall (e.tp t s v) (e.gt v) ≤ recall (e'.tp t s' v) (e'.gt v) ∧
      precision (e.tp t s v) (e.fp t s v) ≤ precision (e'.tp t s' v) (e'.fp t s' v)) :
    List.Forall₂ (fun a b : Rat => a ≤ b) (e.curve t v) (e'.curve t v) ∧ e.ap t v ≤ e'.ap t v := by
  have h101 : (0 : Rat) ≤ 101 := by norm_num
  obtain ⟨a1, a2, a3⟩ := C92_curve_partial e hH hS hD ht hd
  obtain ⟨b1, b2, n2⟩ := curve_mean e' hH' hS' ht v
  have up := fun s' => C92_above e' hH' hS' ht v s'
  rw [a2, b2]
  generalize e.curve t v = c at *
  generalize e'.curve t v = c' at *
  have key : ∀ (j : Nat) (h1 : j < c.length) (h2 : j < c'.length), c[j] ≤ c'[j] := by
    intro j h1 h2
    rcases (a3 j h1).2 with h0 | ⟨s, hs, hr, hw⟩
    · rw [h0]; exact (n2 _ (List.getElem_mem h2)).1
    · obtain ⟨s', r1, r2⟩ := hb s hs
      rw [hw]
      exact le_trans r2 (up s' j h2 (le_trans hr r1))
  exact ⟨List.forall₂_iff_get.2 ⟨a1.trans b1.symm, key⟩, div_le_div_of_nonneg_right (sum_mono (a1.trans b1.symm) key) h101⟩

/-! ## Consequences: other labels, added predictions, order of the annotations -/

theorem allScores_agree {v : String} {H H' : History} (h : AgreeOn v H H') : allScores v H = allScores v H' := by
  have key : ∀ H : History, allScores v H = allScores v (H.filter (About v)) := by
    intro H
    unfold allScores
    induction H with
    | nil => rfl
    | cons x H ih =>
      by_cases hx : About v x = true
      · rw [List.filter_cons_of_pos hx, List.flatMap_cons, List.flatMap_cons, ih]
      · rw [List.filter_cons_of_neg hx, List.flatMap_cons, ih]
        have : scoresFor v x.1.pds = [] := by
          unfold scoresFor
          rw [places_none (about_false (Bool.eq_false_iff.2 hx)).2]
          rfl
        rw [this, List.nil_append]
  rw [key H, key H']
  unfold AgreeOn at h
  unfold allScores
  generalize H.filter (About v) = A at h ⊢
  generalize H'.filter (About v) = B at h ⊢
  induction h with
  | nil => rfl
  | cons hx _ ih => rw [List.flatMap_cons, List.flatMap_cons, ih, hx.pds]

/-- **C89 (average precision), partial.** For single-label predictions with different scores for the label, precision-recall curve and average
precision of the label are the same in all datasets that agree on the annotations of the label. Missing: equal scores (`C89_ap_violation`). -/
theorem C89_ap_partial (e e' : Built) (v : String) (hH : HistoryOk e.calls.flatten) (hH' : HistoryOk e'.calls.flatten)
    (hS : SizesOk (Loader.init.addAll e.calls)) (hS' : SizesOk (Loader.init.addAll e'.calls)) (h1 : OneLabel e.calls.flatten)
    (h1' : OneLabel e'.calls.flatten) (h : AgreeOn v e.calls.flatten e'.calls.flatten) (hd : DifferentScores v e.calls.flatten) {t : Rat} (ht : 0 < t) :
    e.curve t v = e'.curve t v ∧ e.ap t v = e'.ap t v := by
  have hd' : DifferentScores v e'.calls.flatten := by
    unfold DifferentScores
    rw [← allScores_agree h]
    exact hd
  have q := fun s => C89_found e e' v hH hH' hS hS' (distinct_of_one h1) (distinct_of_one h1') h t s
  exact curve_same e e' hH hH' hS hS' (distinct_of_one h1) (distinct_of_one h1') ht hd hd' (q 0).1 (fun s => (q s).2.1)
    (fun s => (C89_label_partial e e' v hH hH' hS hS' h1 h1' h t s).1)

/-- **C90 (average precision).** A prediction is added that finds no new ground truth of the label at any score threshold that it passes: no
value of the curve and not the average precision goes up. -/
theorem C90_ap (e e' : Built) (hH : HistoryOk e.calls.flatten) (hH' : HistoryOk e'.calls.flatten) (hS : SizesOk (Loader.init.addAll e.calls))
    (hS' : SizesOk (Loader.init.addAll e'.calls)) (hD : DistinctLabels e.calls.flatten) (hD' : DistinctLabels e'.calls.flatten)
    {x x' : Det × (Nat → Nat → Rat)} {q : Ann} (h : Adds e.calls.flatten e'.calls.flatten x x' q) {t : Rat} (ht : 0 < t) {v : String}
    (hd' : DifferentScores v e'.calls.flatten) (hf : ∀ s, Passing x' s v x.1.pds.length → FindsNothing x x' t s v) :
    List.Forall₂ (fun a b : Rat => a ≤ b) (e'.curve t v) (e.curve t v) ∧ e'.ap t v ≤ e.ap t v := by
  apply curve_better e' e hH' hH hS' hS hD' ht hd'
  intro s _
  obtain ⟨q1, q2, _, q4⟩ := C90_one_more e e' hH hH' hS hS' hD hD' h t s v (hf s)
  refine ⟨s, ?_, q4⟩
  have a3 := (C54_exact e hH hD hS t s v).2.2.1
  have b3 := (C54_exact e' hH' hD' hS' t s v).2.2.1
  have : e.gt v = e'.gt v := by omega
  rw [q1, this]

/-- **C91 (average precision).** The predictions of the detections are listed in another order and have different scores for the label: curve
and average precision stay. -/
theorem C91_ap (e e' : Built) (hH : HistoryOk e.calls.flatten) (hH' : HistoryOk e'.calls.flatten)
    (hS : SizesOk (Loader.init.addAll e.calls)) (hS' : SizesOk (Loader.init.addAll e'.calls)) (hD : DistinctLabels e.calls.flatten)
    (hD' : DistinctLabels e'.calls.flatten) (h : List.Forall₂ PdsRearranged e.calls.flatten e'.calls.flatten) {t : Rat} (ht : 0 < t) {v : String}
    (hd : DifferentScores v e.calls.flatten) (hd' : DifferentScores v e'.calls.flatten) : e.curve t v = e'.curve t v ∧ e.ap t v = e'.ap t v := by
  have q := fun s => C91_predictions e e' hH hH' hS hS' hD hD' h t s v
  exact curve_same e e' hH hH' hS hS' hD hD' ht hd hd' (q 0).1 (fun s => (q s).2.1) (fun s => (q s).2.2.1)

/-! ## Violations -/

/-- A cat that is found, after an image with a dog that is taken for a cat with the same score. -/
def withDog : List History :=
  [[(⟨"A", [⟨"g", ["dog"], [], ""⟩], [⟨"p", ["cat"], [9 / 10], ""⟩], ""⟩, fun _ _ => 9 / 10),
    (⟨"B", [⟨"h", ["cat"], [], ""⟩], [⟨"q", ["cat"], [9 / 10], ""⟩], ""⟩, fun _ _ => 6 / 10)]]

/-- The same without the ground truth dog. -/
def withoutDog : List History :=
  [[(⟨"A", [], [⟨"p", ["cat"], [9 / 10], ""⟩], ""⟩, fun _ _ => 9 / 10),
    (⟨"B", [⟨"h", ["cat"], [], ""⟩], [⟨"q", ["cat"], [9 / 10], ""⟩], ""⟩, fun _ _ => 6 / 10)]]

theorem dogs_ok : HistoryOk withDog.flatten ∧ OneLabel withDog.flatten ∧ SizesOk (Loader.init.addAll withDog) ∧
    HistoryOk withoutDog.flatten ∧ OneLabel withoutDog.flatten ∧ SizesOk (Loader.init.addAll withoutDog) := by
  refine ⟨⟨?_, ?_, ?_⟩, ?_, ⟨by decide +kernel, by decide +kernel, by decide +kernel, by decide +kernel⟩, ⟨?_, ?_, ?_⟩, ?_,
    ⟨by decide +kernel, by decide +kernel, by decide +kernel, by decide +kernel⟩⟩
  · simp [withDog]
  · simp [withDog]
  · intro x hx p g
    simp only [withDog, List.flatten_cons, List.flatten_nil, List.append_nil, List.mem_cons, List.not_mem_nil, or_false] at hx
    rcases hx with rfl | rfl <;> norm_num
  · unfold OneLabel
    simp [withDog]
  · simp [withoutDog]
  · simp [withoutDog]
  · intro x hx p g
    simp only [withoutDog, List.flatten_cons, List.flatten_nil, List.append_nil, List.mem_cons, List.not_mem_nil, or_false] at hx
    rcases hx with rfl | rfl <;> norm_num
  · unfold OneLabel
    simp [withoutDog]

theorem dogs_agree : AgreeOn "cat" withDog.flatten withoutDog.flatten := by
  refine List.Forall₂.cons ⟨by decide +kernel, by decide +kernel, ?_⟩ (List.Forall₂.cons ⟨by decide +kernel, by decide +kernel, ?_⟩ List.Forall₂.nil)
  · intro i j p g p' g' _ _ _ _
    rfl
  · intro i j p g p' g' _ _ _ _
    rfl

theorem dog_ap : ∃ e : Built, e.calls = withDog ∧ e.ap (1 / 2) "cat" = 1 / 2 := by
  refine ⟨⟨withDog, [(Loader.init.addAll withDog).rows.flatten], [_], ?_, by rw [List.flatten_singleton]; exact rankedOf_mem _⟩, rfl, ?_⟩
  · have := storedSorted_mem (Loader.init.addAll withDog).rows
    have e : (Loader.init.addAll withDog).rows.flatten = sortBy fKey (Loader.init.addAll withDog).rows.flatten := by
      unfold sortBy
      rw [List.mergeSort_of_pairwise]
      decide +kernel
    rw [← e] at this
    exact this
  · unfold Built.ap Built.gt
    dsimp only
    rw [rankTable_sorted_rows (by decide +kernel)]
    decide +kernel

theorem noDog_ap : ∃ e : Built, e.calls = withoutDog ∧ e.ap (1 / 2) "cat" = 1 := by
  refine ⟨⟨withoutDog, [sortBy fKey (Loader.init.addAll withoutDog).rows.flatten], [_], storedSorted_mem _, by rw [List.flatten_singleton]; exact rankedOf_mem _⟩, rfl, ?_⟩
  have e : sortBy fKey (Loader.init.addAll withoutDog).rows.flatten = (Loader.init.addAll withoutDog).rows.flatten.reverse := by
    have hp : (sortBy fKey (Loader.init.addAll withoutDog).rows.flatten).Perm (Loader.init.addAll withoutDog).rows.flatten.reverse :=
      (List.mergeSort_perm _ _).trans (List.reverse_perm _).symm
    have hs : (sortBy fKey (Loader.init.addAll withoutDog).rows.flatten).Pairwise (fun a b => fKey a ≤ fKey b) := Verif.Cache.sortBy_sorted _ _
    refine hp.eq_of_pairwise (le := fun a b => fKey a ≤ fKey b) ?_ hs (by decide +kernel)
    intro a b ha hb h1 h2
    rw [hp.mem_iff] at ha
    have inj : ∀ a ∈ (Loader.init.addAll withoutDog).rows.flatten.reverse, ∀ b ∈ (Loader.init.addAll withoutDog).rows.flatten.reverse, fKey a = fKey b → a = b := by
      decide +kernel
    exact inj a ha b hb (le_antisymm h1 h2)
  unfold Built.ap Built.gt
  dsimp only
  rw [e, rankTable_sorted_rows (by decide +kernel)]
  decide +kernel

/-- The full statement of C89 about average precision, for single-label predictions. -/
def ApApart : Prop :=
  ∀ (e e' : Built) (v : String), HistoryOk e.calls.flatten → HistoryOk e'.calls.flatten → SizesOk (Loader.init.addAll e.calls) →
    SizesOk (Loader.init.addAll e'.calls) → OneLabel e.calls.flatten → OneLabel e'.calls.flatten → AgreeOn v e.calls.flatten e'.calls.flatten →
    ∀ t : Rat, 0 < t → e.ap t v = e'.ap t v

/-- **C89 is false of the code for average precision with equal scores**: two predictions cat have the same score; one finds the cat, the
other overlaps a dog more closely and is ranked first, so the average precision of cat is 1/2. Without the ground truth dog it is 1. -/
theorem C89_ap_violation : ¬ ApApart := by
  intro h
  obtain ⟨e, he, hap⟩ := dog_ap
  obtain ⟨e', he', hap'⟩ := noDog_ap
  obtain ⟨k1, k2, k3, k4, k5, k6⟩ := dogs_ok
  have := h e e' "cat" (he ▸ k1) (he' ▸ k4) (he ▸ k3) (he' ▸ k6) (he ▸ k2) (he' ▸ k5) (he ▸ he' ▸ dogs_agree) (1 / 2) (by norm_num)
  rw [hap, hap'] at this
  norm_num at this

/-- **C92 is false of the code with equal scores**: the two predictions of `withoutDog` have the same score, so at every score threshold both
or none count and the precision is at most 1/2, but the curve ranks the correct one first and has the value 1. -/
theorem C92_violation : ¬ CurveFromThresholds := by
  intro h
  obtain ⟨e, he, hap⟩ := noDog_ap
  obtain ⟨_, _, _, k4, k5, k6⟩ := dogs_ok
  have hH : HistoryOk e.calls.flatten := he ▸ k4
  have hS : SizesOk (Loader.init.addAll e.calls) := he ▸ k6
  have hD : DistinctLabels e.calls.flatten := distinct_of_one (he ▸ k5)
  have ht : (0 : Rat) < 1 / 2 := by norm_num
  have hb := h e hH hS hD (1 / 2) "cat" ht
  obtain ⟨h1, h2, h3⟩ := curve_mean e hH hS ht "cat"
  have hle : ∀ s, precision (e.tp (1 / 2) s "cat") (e.fp (1 / 2) s "cat") ≤ 1 / 2 := by
    intro s
    obtain ⟨a1, a2, a3, _, _⟩ := C54_exact e hH hD hS (1 / 2) s "cat"
    have hg : gtNumber e.calls.flatten "cat" = 1 := by rw [he]; decide +kernel
    have hp : e.tp (1 / 2) s "cat" + e.fp (1 / 2) s "cat" = 2 ∨ e.tp (1 / 2) s "cat" + e.fp (1 / 2) s "cat" = 0 := by
      rw [a2, he]
      have o : ∀ x ∈ withoutDog.flatten, OneLabel [x] := fun x hx y hy => by rw [List.mem_singleton.1 hy]; exact k5 x hx
      rw [List.map_congr_left (fun x hx => pdCount_one (o x hx) s "cat")]
      have e1 : withoutDog.flatten.map (fun x => scoresFor "cat" x.1.pds) = [[9 / 10], [9 / 10]] := by decide +kernel
      have e2 : withoutDog.flatten.map (fun x => ((scoresFor "cat" x.1.pds).filter (fun c => decide (s ≤ c ∧ EPSILON < c))).length)
          = ([[9 / 10], [9 / 10]] : List (List Rat)).map (fun y => (y.filter (fun c => decide (s ≤ c ∧ EPSILON < c))).length) := by
        rw [← e1, List.map_map]
        rfl
      rw [e2]
      simp only [List.map_cons, List.map_nil, List.sum_cons, List.sum_nil, List.filter_singleton]
      cases decide (s ≤ 9 / 10 ∧ EPSILON < 9 / 10) <;> simp
    unfold precision
    rcases hp with hp | hp
    · rw [hp, if_pos (by norm_num), div_le_iff₀ (by norm_num)]
      have : e.tp (1 / 2) s "cat" ≤ 1 := by omega
      have : (e.tp (1 / 2) s "cat" : Rat) ≤ 1 := by exact_mod_cast this
      linarith
    · rw [hp, if_neg (by norm_num)]
      norm_num
  have hall : ∀ w ∈ e.curve (1 / 2) "cat", 0 ≤ w ∧ w ≤ 1 / 2 := by
    intro w hw
    refine ⟨(h3 w hw).1, ?_⟩
    obtain ⟨j, hj, rfl⟩ := List.getElem_of_mem hw
    rcases (hb j hj).2 with h0 | ⟨s, _, _, hs⟩
    · rw [h0]; norm_num
    · rw [hs]; exact hle s
  have := (mean_range h1 hall).2
  rw [← h2, hap] at this
  norm_num at this

/-! ## The hypotheses are met -/

/-- C92 and C89 (average precision). -/
example : HistoryOk twoKinds.flatten ∧ OneLabel twoKinds.flatten ∧ SizesOk (Loader.init.addAll twoKinds) ∧ DifferentScores "cat" twoKinds.flatten ∧
    allScores "cat" twoKinds.flatten = [9 / 10, 7 / 10] :=
  ⟨kinds_ok.1, kinds_ok.2.1, kinds_ok.2.2.1, by unfold DifferentScores; decide +kernel, by decide +kernel⟩

/-- C90 (average precision): the third prediction finds nothing at any score threshold. -/
example : Adds [tieDet] [moreDet] tieDet moreDet ⟨"p2", ["cat"], [7 / 10], ""⟩ ∧ (∀ s, FindsNothing tieDet moreDet (1 / 2) s "cat") ∧
    DifferentScores "cat" [moreDet] ∧ Passing moreDet (1 / 2) "cat" 2 := by
  refine ⟨⟨more_adds, [], [], rfl, rfl⟩, ?_, by unfold DifferentScores; decide +kernel,
    ⟨⟨"p2", ["cat"], [7 / 10], ""⟩, rfl, by simp, by decide +kernel, by decide +kernel⟩⟩
  intro s g _ ht
  exact absurd ht (by norm_num [tieDet, moreDet])

/-- The predictions of `tieDet` in the other order. -/
def swapDet : Det × (Nat → Nat → Rat) :=
  (⟨"d", tieDet.1.gts, [⟨"p1", ["cat"], [8 / 10], ""⟩, ⟨"p0", ["cat"], [9 / 10], ""⟩], ""⟩, fun p g => if p = 1 then 3 / 5 else if g = 0 then 9 / 10 else 0)

/-- C91 (average precision). -/
example : List.Forall₂ PdsRearranged [tieDet] [swapDet] ∧ DifferentScores "cat" [tieDet] ∧ DifferentScores "cat" [swapDet] := by
  refine ⟨List.Forall₂.cons ⟨fun p => 1 - p, fun p => 1 - p, ?_, ?_, ?_, ?_, ?_⟩ List.Forall₂.nil, by unfold DifferentScores; decide +kernel,
    by unfold DifferentScores; decide +kernel⟩
  · intro g b hb
    exact ⟨hb, rfl⟩
  · intro g b hb
    exact ⟨hb, rfl⟩
  · intro p a ha
    rcases p with _ | _ | p <;> simp_all [tieDet, swapDet]
  · intro p a ha
    rcases p with _ | _ | p <;> simp_all [tieDet, swapDet]
  · intro p a g b ha hb
    rcases p with _ | _ | p <;> simp_all [tieDet, swapDet]

end Verif.Detection
