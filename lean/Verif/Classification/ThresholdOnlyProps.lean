import Verif.Classification.RescaleProps

/-! # C133, C135: scores of classifications matter only through the threshold and the winner -/

namespace Verif.Classification

/-- Prediction `i` reaches the threshold and, with winner-take-all, is the winner of its datum. -/
def Counting (t : Rat) (hm : Bool) (c : Classif) (i : Nat) : Prop :=
  (∃ s, c.scores[i]? = some s ∧ t ≤ s) ∧ (hm = true → IsWinner c i)

/-- The same labels, and the same predictions that reach the threshold: `t` in the first, `t'` in the second. The scores themselves, the
identifiers and the metadata are free. -/
structure SameSide (t t' : Rat) (hm : Bool) (c c' : Classif) : Prop where
  gt : c'.gt = c.gt
  preds : c'.preds = c.preds
  reaches : ∀ i, Counting t' hm c' i ↔ Counting t hm c i

/-- What the counts and the matrix need of two classifications to be the same. -/
structure Agrees (t t' : Rat) (hm hm' : Bool) (c c' : Classif) : Prop where
  gt : c'.gt = c.gt
  preds : c'.preds = c.preds
  made : ∀ i, Made t' hm' c' i ↔ Made t hm c i
  shown : ∀ i, Shown t' hm' c' i ↔ Shown t hm c i

theorem made_iff_counting {t : Rat} (ht : 1 / 100000000 < t) (hm : Bool) (c : Classif) (i : Nat) : Made t hm c i ↔ Counting t hm c i := by
  unfold Made Counting
  refine and_congr_left (fun _ => ⟨fun ⟨s, h1, h2, _⟩ => ⟨s, h1, h2⟩, fun ⟨s, h1, h2⟩ => ⟨s, h1, h2, ?_⟩⟩)
  exact lt_of_lt_of_le (lt_of_lt_of_le ht h2) (le_abs_self s)

theorem shown_iff_counting {t : Rat} (ht : 1 / 100000000 < t) (hm : Bool) (c : Classif) (i : Nat) : Shown t hm c i ↔ Counting t hm c i := by
  unfold Shown Counting
  refine and_congr_left (fun _ => ⟨fun ⟨s, h1, h2, _⟩ => ⟨s, h1, h2⟩, fun ⟨s, h1, h2⟩ => ⟨s, h1, h2, ?_⟩⟩)
  have h3 : (1 : Rat) / 1000000000 < 1 / 100000000 := by norm_num
  exact lt_trans h3 (lt_of_lt_of_le ht h2)

theorem SameSide.agrees {t t' : Rat} (ht : 1 / 100000000 < t) (ht' : 1 / 100000000 < t') {hm : Bool} {c c' : Classif}
    (h : SameSide t t' hm c c') : Agrees t t' hm hm c c' :=
  ⟨h.gt, h.preds, fun i => by rw [made_iff_counting ht', made_iff_counting ht, h.reaches],
    fun i => by rw [shown_iff_counting ht', shown_iff_counting ht, h.reaches]⟩

section
variable {t t' : Rat} {hm hm' : Bool} {cs cs' : List Classif} (h : List.Forall₂ (Agrees t t' hm hm') cs cs')
include h

theorem agrees_sum {f g : Classif → Nat} (hfg : ∀ c c', Agrees t t' hm hm' c c' → g c' = f c) : (cs'.map g).sum = (cs.map f).sum := by
  induction h with
  | nil => rfl
  | cons hc _ ih => simp only [List.map_cons, List.sum_cons, ih, hfg _ _ hc]

theorem agrees_countP {f g : Classif → Bool} (hfg : ∀ c c', Agrees t t' hm hm' c c' → g c' = f c) : cs'.countP g = cs.countP f := by
  induction h with
  | nil => rfl
  | cons hc _ ih => simp only [List.countP_cons, ih, hfg _ _ hc]

theorem countsOf_agrees (v : String) : countsOf cs' hm' t' v = countsOf cs hm t v := by
  classical
  unfold countsOf specTP specFP specFN specTN
  simp only [Counts.mk.injEq]
  refine ⟨agrees_sum h ?_, agrees_sum h ?_, agrees_countP h ?_, agrees_countP h ?_⟩ <;>
  · intro c c' hc
    simp only [hc.gt, hc.preds, hc.made]

theorem specCell_agrees (g p : String) : specCell cs' t' hm' g p = specCell cs t hm g p := by
  classical
  unfold specCell
  exact agrees_countP h (fun c c' hc => by simp only [hc.gt, hc.preds, hc.shown])

theorem specMissed_agrees (g : String) : specMissed cs' t' hm' g = specMissed cs t hm g := by
  classical
  unfold specMissed
  exact agrees_countP h (fun c c' hc => by simp only [hc.gt, hc.shown])

theorem agrees_used (v : String) : (∃ c ∈ cs', c.gt = v ∨ v ∈ c.preds) ↔ ∃ c ∈ cs, c.gt = v ∨ v ∈ c.preds := by
  induction h with
  | nil => exact Iff.rfl
  | cons hc _ ih =>
    simp only [List.mem_cons, exists_eq_or_imp, hc.gt, hc.preds]
    exact or_congr Iff.rfl ih

end

theorem mem_labels_iff (e : Built) (v : String) : v ∈ e.labels ↔ ∃ c ∈ history e.calls, c.gt = v ∨ v ∈ c.preds := by
  constructor
  · intro hv
    obtain ⟨c, hc, hu⟩ := (linv_reach e.calls).onlyUsed v hv
    refine ⟨c, hc, ?_⟩
    rcases hu with rfl | hu
    · exact Or.inl rfl
    · exact Or.inr hu
  · rintro ⟨c, hc, hu⟩
    obtain ⟨h1, h2⟩ := covers_reach e.calls e.valid c hc
    rcases hu with rfl | hu
    · exact h1
    · exact h2 _ hu

theorem all_of_agrees {e e' : Built} {t t' : Rat} {hm hm' : Bool} {cs : List Classif} (hp : (history e'.calls).Perm cs)
    (h : List.Forall₂ (Agrees t t' hm hm') (history e.calls) cs) (hL : e.labels.length ≤ 100000) :
    (∀ v, e'.metricsOf t' hm' v = e.metricsOf t hm v) ∧
    (e'.metrics t' hm').map ThresholdMetrics.accuracy = (e.metrics t hm).map ThresholdMetrics.accuracy ∧
    (∀ g p, e'.cell t' hm' g p = e.cell t hm g p) ∧ ∀ v, e'.missed t' hm' v = e.missed t hm v := by
  have hmem : ∀ v, v ∈ e'.labels ↔ v ∈ e.labels := by
    intro v
    rw [mem_labels_iff, mem_labels_iff, ← agrees_used h]
    simp only [hp.mem_iff]
  have hlab : e'.labels.Perm e.labels := (List.perm_ext_iff_of_nodup (linv_reach e'.calls).nodup (linv_reach e.calls).nodup).2 hmem
  have hlen := hlab.length_eq
  have hcounts : ∀ v, countsOf (history e'.calls) hm' t' v = countsOf (history e.calls) hm t v := by
    intro v
    rw [countsOf_perm hp, countsOf_agrees h]
  refine ⟨?_, ?_, ?_, ?_⟩
  · intro v
    rw [e'.metricsOf_eq (by omega), e.metricsOf_eq hL, hcounts]
    simp only [hmem]
  · rw [e'.metrics_eq (by omega), e.metrics_eq hL]
    unfold toMetrics
    simp only [Option.map_some, Option.some.injEq]
    rw [Verif.Classification.accuracy_eq, Verif.Classification.accuracy_eq, List.Perm.length_eq hp, ← h.length_eq,
      ((hlab.map _).map _).sum_eq, List.map_map, List.map_map]
    congr 3
    exact List.map_congr_left (fun v _ => by simp only [Function.comp_apply, hcounts])
  · intro g p
    rw [Built.cell_eq, Built.cell_eq, ← specCell_agrees h]
    unfold specCell
    rw [List.Perm.countP_eq _ hp]
  · intro v
    rw [Built.missed_eq, Built.missed_eq, ← specMissed_agrees h]
    unfold specMissed
    rw [List.Perm.countP_eq _ hp]

/-- **C133 (two classifiers).** Two datasets with the same ground truths and predicted labels, datum by datum in any order and stored in any
tables, in which the same predictions reach the threshold and, with winner-take-all, the same ones win: every label has the same counts,
precision, recall and F1, the accuracies agree, and so do the confusion matrices and the unmatched ground truths. How far a score lies from
the threshold does not matter. -/
theorem C133_scores {e e' : Built} {t : Rat} (ht : 1 / 100000000 < t) {hm : Bool} {cs : List Classif} (hp : (history e'.calls).Perm cs)
    (h : List.Forall₂ (SameSide t t hm) (history e.calls) cs) (hL : e.labels.length ≤ 100000) :
    (∀ v, e'.metricsOf t hm v = e.metricsOf t hm v) ∧
    (e'.metrics t hm).map ThresholdMetrics.accuracy = (e.metrics t hm).map ThresholdMetrics.accuracy ∧
    (∀ g p, e'.cell t hm g p = e.cell t hm g p) ∧ ∀ v, e'.missed t hm v = e.missed t hm v :=
  all_of_agrees hp (h.imp (fun _ _ hc => hc.agrees ht ht)) hL

/-- **C133 (two thresholds).** Two thresholds with no score from the lower one up to below the higher one give the same counts, metrics,
accuracy, confusion matrix and unmatched ground truths. Holds for all thresholds, 0 and negative ones included. -/
theorem C133_thresholds {e : Built} {t t' : Rat} (htt : t ≤ t') (hgap : ∀ c ∈ history e.calls, ∀ s ∈ c.scores, s < t ∨ t' ≤ s)
    (hL : e.labels.length ≤ 100000) (hm : Bool) :
    (∀ v, e.metricsOf t' hm v = e.metricsOf t hm v) ∧
    (e.metrics t' hm).map ThresholdMetrics.accuracy = (e.metrics t hm).map ThresholdMetrics.accuracy ∧
    (∀ g p, e.cell t' hm g p = e.cell t hm g p) ∧ ∀ v, e.missed t' hm v = e.missed t hm v := by
  refine all_of_agrees (List.Perm.refl _) (List.forall₂_same.2 (fun c hc => ?_)) hL
  have hs : ∀ {i : Nat} {s : Rat}, c.scores[i]? = some s → (t' ≤ s ↔ t ≤ s) := by
    intro i s his
    rcases hgap c hc s (List.mem_of_getElem? his) with h | h
    · exact ⟨fun h' => absurd (lt_of_lt_of_le h htt) (not_lt.2 h'), fun h' => absurd h (not_lt.2 h')⟩
    · exact ⟨fun _ => le_trans htt h, fun _ => h⟩
  refine ⟨rfl, rfl, fun i => ?_, fun i => ?_⟩
  · unfold Made
    refine and_congr_left (fun _ => exists_congr (fun s => and_congr_right (fun his => ?_)))
    rw [hs his]
  · unfold Shown
    refine and_congr_left (fun _ => exists_congr (fun s => and_congr_right (fun his => ?_)))
    rw [hs his]

/-- **C135.** Where at most one prediction of each datum reaches the threshold, winner-take-all changes nothing: the counts, metrics, accuracy,
confusion matrix and unmatched ground truths are those of the plain evaluation. -/
theorem C135_one {e : Built} {t : Rat}
    (hone : ∀ c ∈ history e.calls, ∀ (i j : Nat) (x y : Rat), c.scores[i]? = some x → c.scores[j]? = some y → t ≤ x → t ≤ y → i = j)
    (hL : e.labels.length ≤ 100000) :
    (∀ v, e.metricsOf t true v = e.metricsOf t false v) ∧
    (e.metrics t true).map ThresholdMetrics.accuracy = (e.metrics t false).map ThresholdMetrics.accuracy ∧
    (∀ g p, e.cell t true g p = e.cell t false g p) ∧ ∀ v, e.missed t true v = e.missed t false v := by
  refine all_of_agrees (List.Perm.refl _) (List.forall₂_same.2 (fun c hc => ?_)) hL
  have hw : ∀ (i : Nat) (s : Rat), c.scores[i]? = some s → t ≤ s → IsWinner c i := by
    intro i s his hts
    have hlt : ∀ j y, c.scores[j]? = some y → j ≠ i → y < s := by
      intro j y hj hne
      by_contra h
      exact hne (hone c hc j i y s hj his (le_trans hts (not_lt.1 h)) hts)
    refine ⟨s, his, fun y hy => ?_, fun j hj y hy => hlt j y hy (by omega)⟩
    obtain ⟨j, hj⟩ := List.mem_iff_getElem?.1 hy
    by_cases hji : j = i
    · subst hji
      rw [his] at hj
      exact le_of_eq (Option.some.inj hj).symm
    · exact le_of_lt (hlt j y hj hji)
  refine ⟨rfl, rfl, fun i => ?_, fun i => ?_⟩
  · exact ⟨fun h => ⟨h.1, fun h' => absurd h' (by decide)⟩, fun h => ⟨h.1, fun _ => by
      obtain ⟨⟨s, h1, h2, _⟩, _⟩ := h
      exact hw i s h1 h2⟩⟩
  · exact ⟨fun h => ⟨h.1, fun h' => absurd h' (by decide)⟩, fun h => ⟨h.1, fun _ => by
      obtain ⟨⟨s, h1, h2, _⟩, _⟩ := h
      exact hw i s h1 h2⟩⟩

theorem two_le_sum {l : List Rat} (h0 : ∀ x ∈ l, 0 ≤ x) : ∀ {i j : Nat} {x y : Rat}, i < j → l[i]? = some x → l[j]? = some y → x + y ≤ l.sum := by
  induction l with
  | nil => intro i j x y _ h; simp at h
  | cons a l ih =>
    intro i j x y hij hi hj
    have ha := h0 a List.mem_cons_self
    have h0' : ∀ x ∈ l, 0 ≤ x := fun x hx => h0 x (List.mem_cons_of_mem _ hx)
    rw [List.sum_cons]
    obtain ⟨j, rfl⟩ : ∃ k, j = k + 1 := ⟨j - 1, by omega⟩
    rw [List.getElem?_cons_succ] at hj
    rcases i with _ | i
    · rw [List.getElem?_cons_zero] at hi
      obtain rfl := Option.some.inj hi
      have := List.single_le_sum h0' y (List.mem_of_getElem? hj)
      linarith
    · rw [List.getElem?_cons_succ] at hi
      have := ih h0' (by omega) hi hj
      linarith

/-- **C135 (probabilities).** For scores that are probabilities (not negative, of sum at most 1) winner-take-all changes nothing at any threshold
above 1/2. -/
theorem C135_probabilities {e : Built} {t : Rat} (ht : 1 / 2 < t)
    (hprob : ∀ c ∈ history e.calls, (∀ s ∈ c.scores, 0 ≤ s) ∧ c.scores.sum ≤ 1) (hL : e.labels.length ≤ 100000) :
    (∀ v, e.metricsOf t true v = e.metricsOf t false v) ∧
    (e.metrics t true).map ThresholdMetrics.accuracy = (e.metrics t false).map ThresholdMetrics.accuracy ∧
    (∀ g p, e.cell t true g p = e.cell t false g p) ∧ ∀ v, e.missed t true v = e.missed t false v := by
  refine C135_one (fun c hc i j x y hi hj hx hy => ?_) hL
  obtain ⟨h0, h1⟩ := hprob c hc
  rcases Nat.lt_trichotomy i j with h | h | h
  · have := two_le_sum h0 h hi hj
    linarith
  · exact h
  · have := two_le_sum h0 h hj hi
    linarith

/-- A hesitant and a confident classifier that reach 1/2 with the same label and choose the same winner. -/
def hesitant : Classif := ⟨"u", "a", ["a", "b"], [3 / 5, 2 / 5], ""⟩
def confident : Classif := ⟨"w", "a", ["a", "b"], [9 / 10, 1 / 10], "x"⟩

example : (∃ e e' : Built, (history e'.calls).Perm [confident] ∧ List.Forall₂ (SameSide (1 / 2) (1 / 2) true) (history e.calls) [confident] ∧
      e.labels.length ≤ 100000) ∧
    ∃ e : Built, history e.calls = [hesitant] ∧ (∀ c ∈ history e.calls, (∀ s ∈ c.scores, 0 ≤ s) ∧ c.scores.sum ≤ 1) ∧
      (∀ c ∈ history e.calls, ∀ s ∈ c.scores, s < 41 / 100 ∨ 1 / 2 ≤ s) ∧ e.labels.length ≤ 100000 := by
  obtain ⟨e, he⟩ := built_exists [[hesitant]] (by decide +kernel)
  obtain ⟨e', he'⟩ := built_exists [[confident]] (by decide +kernel)
  have h1 : history e.calls = [hesitant] := by rw [he]; decide +kernel
  have h2 : history e'.calls = [confident] := by rw [he']; decide +kernel
  have h3 : e.labels.length ≤ 100000 := by unfold Built.labels; rw [he]; decide +kernel
  refine ⟨⟨e, e', by rw [h2], ?_, h3⟩, e, h1, by rw [h1]; decide +kernel, ?_, h3⟩
  · rw [h1]
    refine List.Forall₂.cons ⟨rfl, rfl, fun i => ?_⟩ List.Forall₂.nil
    have w1 : IsWinner hesitant 0 := ⟨3 / 5, rfl, by decide +kernel, by intro j hj; omega⟩
    have w2 : IsWinner confident 0 := ⟨9 / 10, rfl, by decide +kernel, by intro j hj; omega⟩
    rcases i with _ | _ | i
    · exact ⟨fun _ => ⟨⟨3 / 5, rfl, by norm_num⟩, fun _ => w1⟩, fun _ => ⟨⟨9 / 10, rfl, by norm_num⟩, fun _ => w2⟩⟩
    · constructor
      · rintro ⟨⟨s, hs, h⟩, _⟩
        simp only [confident, zero_add, List.getElem?_cons_succ, List.getElem?_cons_zero, Option.some.injEq] at hs
        rw [← hs] at h
        norm_num at h
      · rintro ⟨⟨s, hs, h⟩, _⟩
        simp only [hesitant, zero_add, List.getElem?_cons_succ, List.getElem?_cons_zero, Option.some.injEq] at hs
        rw [← hs] at h
        norm_num at h
    · constructor <;>
      · rintro ⟨⟨s, hs, _⟩, _⟩
        simp [hesitant, confident] at hs
  · rw [h1]
    decide +kernel

end Verif.Classification
