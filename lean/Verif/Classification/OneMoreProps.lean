import Verif.Classification.CoarserProps

/-!
# C128: one more datum

(`classification/loader.py` 39-97, `classification/computation.py` 89-233)
-/

namespace Verif.Classification

/-- The datum is classified correctly: the top prediction is the ground truth, with a score that counts at the threshold. -/
def Hits (t : Rat) (c : Classif) : Prop := ∃ i, IsWinner c i ∧ c.preds[i]? = some c.gt ∧ ∃ s, c.scores[i]? = some s ∧ t ≤ s ∧ 1 / 100000000 < |s|

/-- `e'` was built from the datums of `e` and `c`, added in any order. -/
def OneMore (e e' : Built) (c : Classif) : Prop := (history e'.calls).Perm (c :: history e.calls)

section

variable {c : Classif} {L : List String} {t : Rat}

/-- What a right datum adds to the counts of a label. -/
theorem right_adds (h : Covers L c) (hn : c.preds.Nodup) (hr : Hits t c) (v : String) :
    specTP [c] t true v = (if c.gt = v then 1 else 0) ∧ specFP [c] t true v = 0 ∧ specFN [c] t true v = 0 := by
  classical
  obtain ⟨i, h1, h2, s, h3, h4⟩ := hr
  have hm : Made t true c i := ⟨⟨s, h3, h4⟩, fun _ => h1⟩
  have e1 := single_tp h t h1 h2 h3 v
  have e2 := single_fp h t h1 h2 h3 v
  have e3 := single_truth h hn (.inr ⟨i, hm⟩) v
  have hc : Counted t s := h4
  by_cases hv : c.gt = v
  · rw [if_pos ⟨hv, hv, hc⟩] at e1
    rw [if_neg fun h => h.1 hv] at e2
    rw [if_pos hv] at e3 ⊢
    omega
  · rw [if_neg fun h => hv h.1] at e1
    rw [if_neg fun h => hv h.2.1] at e2
    rw [if_neg hv] at e3 ⊢
    omega

/-- Another datum adds no true positive. -/
theorem wrong_adds (h : Covers L c) (hr : ¬ Hits t c) (v : String) : specTP [c] t true v = 0 := by
  classical
  obtain ⟨s, h1, _⟩ := argmax_spec c.scores h.scores_ne
  have hlt : argmax c.scores < c.preds.length := by
    rw [h.valid]
    exact (List.getElem?_eq_some_iff.1 h1).1
  have hw := (isWinner_argmax h.scores_ne (argmax c.scores)).2 rfl
  rw [single_tp h t hw (List.getElem?_eq_getElem hlt) h1, if_neg]
  rintro ⟨hg, hp, hc⟩
  exact hr ⟨_, hw, by rw [List.getElem?_eq_getElem hlt, hp, hg], s, h1, hc⟩

end

theorem f1_mono {p r p' r' : Rat} (hp : 0 ≤ p) (hr : 0 ≤ r) (h1 : p ≤ p') (h2 : r ≤ r') : f1 p r ≤ f1 p' r' := by
  unfold f1
  by_cases h : p + r > 1 / 1000000000
  · rw [if_pos h, if_pos (by linarith)]
    have hpos : 0 < p + r := by linarith [show (0 : Rat) < 1 / 1000000000 by norm_num]
    rw [div_le_div_iff₀ hpos (by linarith)]
    have a1 : p * r * p' ≤ p' * r' * p := by nlinarith [mul_nonneg (mul_nonneg hp (hp.trans h1)) (sub_nonneg.2 h2)]
    have a2 : p * r * r' ≤ p' * r' * r := by nlinarith [mul_nonneg (mul_nonneg hr (hr.trans h2)) (sub_nonneg.2 h1)]
    nlinarith
  · rw [if_neg h]
    split
    · rename_i h'
      exact div_nonneg (mul_nonneg (mul_nonneg (by norm_num) (hp.trans h1)) (hr.trans h2)) (by linarith)
    · exact le_refl _

local notation "quot" => Verif.Segmentation.ratio

theorem quot_nonneg (a b : Nat) : 0 ≤ quot a b := by
  unfold Verif.Segmentation.ratio
  split
  · exact le_refl _
  · positivity

theorem quot_grows {a b k : Nat} (h : a ≤ b) : quot a b ≤ quot (a + k) (b + k) := by
  unfold Verif.Segmentation.ratio
  by_cases hb : b = 0
  · rw [if_pos hb]
    split
    · exact le_refl _
    · positivity
  · have hb' : (0 : Rat) < b := by exact_mod_cast Nat.pos_of_ne_zero hb
    rw [if_neg hb, if_neg (by omega), div_le_div_iff₀ hb' (by push_cast; positivity)]
    have : (a : Rat) ≤ b := by exact_mod_cast h
    push_cast
    nlinarith [mul_nonneg (sub_nonneg.2 this) (show (0 : Rat) ≤ k by positivity)]

theorem quot_shrinks (a b k : Nat) : quot a (b + k) ≤ quot a b ∨ b = 0 := by
  by_cases hb : b = 0
  · exact .inr hb
  · left
    unfold Verif.Segmentation.ratio
    have hb' : (0 : Rat) < b := by exact_mod_cast Nat.pos_of_ne_zero hb
    rw [if_neg hb, if_neg (by omega)]
    exact div_le_div_of_nonneg_left (by positivity) hb' (by push_cast; linarith [show (0 : Rat) ≤ k by positivity])

theorem quot_shrinks' {a b : Nat} (h : a ≤ b) (k : Nat) : quot a (b + k) ≤ quot a b := by
  rcases quot_shrinks a b k with h1 | h1
  · exact h1
  · have : a = 0 := by omega
    subst this
    unfold Verif.Segmentation.ratio
    split <;> simp

/-- The counts with one more datum. -/
theorem more_counts {e e' : Built} {c : Classif} (h : OneMore e e' c) (t : Rat) (hm : Bool) (v : String) :
    specTP (history e'.calls) t hm v = specTP [c] t hm v + specTP (history e.calls) t hm v ∧
    specFP (history e'.calls) t hm v = specFP [c] t hm v + specFP (history e.calls) t hm v ∧
    specFN (history e'.calls) t hm v = specFN [c] t hm v + specFN (history e.calls) t hm v := by
  have e1 := congrFun (congrFun (countsOf_perm h hm) t) v
  have e2 := spec_cons c (history e.calls) t hm v
  simp only [countsOf, Counts.add, Counts.mk.injEq] at e1 e2
  exact ⟨e1.1.trans e2.1, e1.2.1.trans e2.2.1, e1.2.2.1.trans e2.2.2.1⟩

theorem more_covers {e e' : Built} {c : Classif} (h : OneMore e e' c) : Covers e'.labels c :=
  covers_reach e'.calls e'.valid c (h.mem_iff.2 List.mem_cons_self)

theorem Built.label_metrics (e : Built) (hL : e.labels.length ≤ 100000) {t : Rat} {hm : Bool} {v : String} {x : LabelMetrics} (h : e.metricsOf t hm v = some x) :
    x.precision = quot (specTP (history e.calls) t hm v) (specTP (history e.calls) t hm v + specFP (history e.calls) t hm v) ∧
    x.recall = quot (specTP (history e.calls) t hm v) (specTP (history e.calls) t hm v + specFN (history e.calls) t hm v) ∧
    x.f1 = f1 x.precision x.recall := by
  rw [e.metricsOf_eq hL] at h
  split at h
  · obtain rfl := Option.some.inj h
    exact ⟨precision_ratio _, recall_ratio _, rfl⟩
  · cases h

theorem Built.accuracy_value (e : Built) (hL : e.labels.length ≤ 100000) {t : Rat} {hm : Bool} {m : ThresholdMetrics} (h : e.metrics t hm = some m) :
    m.accuracy = quot ((history e.calls).map (fun c => specTP [c] t hm c.gt)).sum (history e.calls).length := by
  rw [e.metrics_eq hL] at h
  obtain rfl := Option.some.inj h
  have := accuracy_datums (linv_reach e.calls).nodup (covers_reach e.calls e.valid) hm t
  show accuracy (e.labels.map _) _ = _
  change accuracy (e.labels.map _) _ * _ = _ at this
  unfold Verif.Segmentation.ratio
  split
  · rename_i h0
    unfold accuracy
    rw [if_pos h0]
  · rename_i h0
    rw [eq_div_iff (by exact_mod_cast h0)]
    exact this

theorem found_le {L : List String} {cs : List Classif} (h : ∀ c ∈ cs, Covers L c) (t : Rat) : (cs.map (fun c => specTP [c] t true c.gt)).sum ≤ cs.length :=
  sum_le_length fun c hc => specTP_le (h c hc) c.gt

/-- **C128 (right, partial).** One more datum that is classified correctly lowers neither the accuracy nor precision, recall and F1 of any label.
Missing: datums whose prediction lists a label twice, for which it is false (`C128_violation`). -/
theorem C128_right_partial {e e' : Built} {c : Classif} (h : OneMore e e' c) (hL : e.labels.length ≤ 100000) (hL' : e'.labels.length ≤ 100000) {t : Rat}
    (hr : Hits t c) (hn : c.preds.Nodup) :
    (∀ m m', e.metrics t true = some m → e'.metrics t true = some m' → m.accuracy ≤ m'.accuracy) ∧
    ∀ v x x', e.metricsOf t true v = some x → e'.metricsOf t true v = some x' →
      x.precision ≤ x'.precision ∧ x.recall ≤ x'.recall ∧ x.f1 ≤ x'.f1 := by
  have hc := more_covers h
  constructor
  · intro m m' hm hm'
    rw [e.accuracy_value hL hm, e'.accuracy_value hL' hm', (h.map _).sum_eq, h.length_eq, List.map_cons, List.sum_cons, List.length_cons,
      (right_adds hc hn hr c.gt).1, if_pos rfl, Nat.add_comm 1]
    exact quot_grows (found_le (covers_reach e.calls e.valid) t)
  · intro v x x' hx hx'
    obtain ⟨p1, r1, f1'⟩ := e.label_metrics hL hx
    obtain ⟨p2, r2, f2'⟩ := e'.label_metrics hL' hx'
    obtain ⟨c1, c2, c3⟩ := more_counts h t true v
    obtain ⟨a1, a2, a3⟩ := right_adds hc hn hr v
    have hp : x.precision ≤ x'.precision := by
      rw [p1, p2, c1, c2, a2, Nat.zero_add, Nat.add_comm (specTP [c] t true v), Nat.add_right_comm]
      exact quot_grows (Nat.le_add_right _ _)
    have hrec : x.recall ≤ x'.recall := by
      rw [r1, r2, c1, c3, a3, Nat.zero_add, Nat.add_comm (specTP [c] t true v), Nat.add_right_comm]
      exact quot_grows (Nat.le_add_right _ _)
    refine ⟨hp, hrec, ?_⟩
    rw [f1', f2']
    exact f1_mono (p1 ▸ quot_nonneg _ _) (r1 ▸ quot_nonneg _ _) hp hrec

/-- **C128 (wrong).** One more datum that is not classified correctly raises neither the accuracy nor precision, recall and F1 of any label. -/
theorem C128_wrong {e e' : Built} {c : Classif} (h : OneMore e e' c) (hL : e.labels.length ≤ 100000) (hL' : e'.labels.length ≤ 100000) {t : Rat}
    (hr : ¬ Hits t c) :
    (∀ m m', e.metrics t true = some m → e'.metrics t true = some m' → m'.accuracy ≤ m.accuracy) ∧
    ∀ v x x', e.metricsOf t true v = some x → e'.metricsOf t true v = some x' →
      x'.precision ≤ x.precision ∧ x'.recall ≤ x.recall ∧ x'.f1 ≤ x.f1 := by
  have hc := more_covers h
  constructor
  · intro m m' hm hm'
    rw [e.accuracy_value hL hm, e'.accuracy_value hL' hm', (h.map _).sum_eq, h.length_eq, List.map_cons, List.sum_cons, List.length_cons,
      wrong_adds hc hr c.gt, Nat.zero_add]
    exact quot_shrinks' (found_le (covers_reach e.calls e.valid) t) 1
  · intro v x x' hx hx'
    obtain ⟨p1, r1, f1'⟩ := e.label_metrics hL hx
    obtain ⟨p2, r2, f2'⟩ := e'.label_metrics hL' hx'
    obtain ⟨c1, c2, c3⟩ := more_counts h t true v
    have a1 := wrong_adds hc hr v
    have hp : x'.precision ≤ x.precision := by
      rw [p1, p2, c1, c2, a1, Nat.zero_add, Nat.add_comm (specFP [c] t true v), ← Nat.add_assoc]
      exact quot_shrinks' (Nat.le_add_right _ _) _
    have hrec : x'.recall ≤ x.recall := by
      rw [r1, r2, c1, c3, a1, Nat.zero_add, Nat.add_comm (specFN [c] t true v), ← Nat.add_assoc]
      exact quot_shrinks' (Nat.le_add_right _ _) _
    refine ⟨hp, hrec, ?_⟩
    rw [f1', f2']
    exact f1_mono (p2 ▸ quot_nonneg _ _) (r2 ▸ quot_nonneg _ _) hp hrec

/-! ## Without hardmax -/

/-- Without hardmax: the datum scores its ground truth so that it counts, and no other label. -/
def HitsOnly (t : Rat) (c : Classif) : Prop := (∃ i, c.preds[i]? = some c.gt ∧ Made t false c i) ∧ ∀ i p, c.preds[i]? = some p → Made t false c i → p = c.gt

/-- Without hardmax: the ground truth does not get a score that counts. -/
def Misses (t : Rat) (c : Classif) : Prop := ∀ i, c.preds[i]? = some c.gt → ¬ Made t false c i

section

variable {c : Classif} {t : Rat}

theorem soft_le (hn : c.preds.Nodup) (v : String) : specTP [c] t false v ≤ 1 := by
  classical
  simp only [specTP, List.map_cons, List.map_nil, List.sum_cons, List.sum_nil, Nat.add_zero]
  by_cases h : ∃ w : Nat, c.preds[w]? = some v
  · obtain ⟨w, hw⟩ := h
    have hlt := (List.getElem?_eq_some_iff.1 hw).1
    rw [countP_range_unique hlt]
    · split <;> omega
    · intro j hj
      rw [decide_eq_true_eq] at hj
      have hjl := (List.getElem?_eq_some_iff.1 hj.2.1).1
      refine (List.Nodup.getElem_inj_iff hn (hi := hjl) (hj := hlt)).1 (Option.some.inj ?_)
      rw [← List.getElem?_eq_getElem, ← List.getElem?_eq_getElem, hj.2.1, hw]
  · rw [List.countP_eq_zero.2]
    · exact Nat.zero_le _
    · intro j _ hj
      rw [decide_eq_true_eq] at hj
      exact h ⟨j, hj.2.1⟩

theorem soft_hit (hn : c.preds.Nodup) (h : HitsOnly t c) (v : String) :
    specTP [c] t false v = (if c.gt = v then 1 else 0) ∧ specFP [c] t false v = 0 ∧ specFN [c] t false v = 0 := by
  classical
  obtain ⟨⟨i, hi, hm⟩, ho⟩ := h
  refine ⟨?_, ?_, ?_⟩
  · split
    · rename_i hv
      subst hv
      refine le_antisymm (soft_le hn _) ?_
      simp only [specTP, List.map_cons, List.map_nil, List.sum_cons, List.sum_nil, Nat.add_zero]
      exact List.countP_pos_iff.2 ⟨i, List.mem_range.2 (List.getElem?_eq_some_iff.1 hi).1, by simp [hi, hm]⟩
    · rename_i hv
      simp [specTP, hv]
  · simp only [specFP, List.map_cons, List.map_nil, List.sum_cons, List.sum_nil, Nat.add_zero, List.countP_eq_zero, decide_eq_true_eq]
    rintro j _ ⟨h1, h2, h3⟩
    exact h1 (ho j v h2 h3).symm
  · simp only [specFN, List.countP_eq_zero, List.mem_singleton, decide_eq_true_eq]
    rintro d rfl ⟨rfl, j, p, hj, hp⟩
    rcases hp with ⟨rfl, h2⟩ | ⟨h1, h2⟩
    · apply h2
      have hjl := (List.getElem?_eq_some_iff.1 hj).1
      have hil := (List.getElem?_eq_some_iff.1 hi).1
      have : j = i := by
        refine (List.Nodup.getElem_inj_iff hn (hi := hjl) (hj := hil)).1 (Option.some.inj ?_)
        rw [← List.getElem?_eq_getElem, ← List.getElem?_eq_getElem, hj, hi]
      exact this ▸ hm
    · exact h1 (ho j p hj h2)

theorem soft_miss (h : Misses t c) (v : String) : specTP [c] t false v = 0 := by
  classical
  simp only [specTP, List.map_cons, List.map_nil, List.sum_cons, List.sum_nil, Nat.add_zero, List.countP_eq_zero, decide_eq_true_eq]
  rintro j _ ⟨rfl, h2, h3⟩
  exact h j h2 h3

end

/-- **C128 (right, without hardmax, partial).** One more datum whose only prediction that counts is its ground truth lowers nothing, for datasets whose predictions
list no label twice. -/
theorem C128_soft_right_partial {e e' : Built} {c : Classif} (h : OneMore e e' c) (hL : e.labels.length ≤ 100000) (hL' : e'.labels.length ≤ 100000) {t : Rat}
    (hr : HitsOnly t c) (hn : ∀ d ∈ history e'.calls, d.preds.Nodup) :
    (∀ m m', e.metrics t false = some m → e'.metrics t false = some m' → m.accuracy ≤ m'.accuracy) ∧
    ∀ v x x', e.metricsOf t false v = some x → e'.metricsOf t false v = some x' →
      x.precision ≤ x'.precision ∧ x.recall ≤ x'.recall ∧ x.f1 ≤ x'.f1 := by
  have hnc := hn c (h.mem_iff.2 List.mem_cons_self)
  constructor
  · intro m m' hm hm'
    rw [e.accuracy_value hL hm, e'.accuracy_value hL' hm', (h.map _).sum_eq, h.length_eq, List.map_cons, List.sum_cons, List.length_cons,
      (soft_hit hnc hr c.gt).1, if_pos rfl, Nat.add_comm 1]
    exact quot_grows (sum_le_length fun d hd => soft_le (hn d (h.mem_iff.2 (List.mem_cons_of_mem _ hd))) d.gt)
  · intro v x x' hx hx'
    obtain ⟨p1, r1, f1'⟩ := e.label_metrics hL hx
    obtain ⟨p2, r2, f2'⟩ := e'.label_metrics hL' hx'
    obtain ⟨c1, c2, c3⟩ := more_counts h t false v
    obtain ⟨a1, a2, a3⟩ := soft_hit hnc hr v
    have hp : x.precision ≤ x'.precision := by
      rw [p1, p2, c1, c2, a2, Nat.zero_add, Nat.add_comm (specTP [c] t false v), Nat.add_right_comm]
      exact quot_grows (Nat.le_add_right _ _)
    have hrec : x.recall ≤ x'.recall := by
      rw [r1, r2, c1, c3, a3, Nat.zero_add, Nat.add_comm (specTP [c] t false v), Nat.add_right_comm]
      exact quot_grows (Nat.le_add_right _ _)
    refine ⟨hp, hrec, ?_⟩
    rw [f1', f2']
    exact f1_mono (p1 ▸ quot_nonneg _ _) (r1 ▸ quot_nonneg _ _) hp hrec

/-- **C128 (wrong, without hardmax).** One more datum whose ground truth gets no score that counts raises precision, recall and F1 of no label, and not the accuracy. -/
theorem C128_soft_wrong {e e' : Built} {c : Classif} (h : OneMore e e' c) (hL : e.labels.length ≤ 100000) (hL' : e'.labels.length ≤ 100000) {t : Rat}
    (hr : Misses t c) :
    (∀ m m', e.metrics t false = some m → e'.metrics t false = some m' → m'.accuracy ≤ m.accuracy) ∧
    ∀ v x x', e.metricsOf t false v = some x → e'.metricsOf t false v = some x' →
      x'.precision ≤ x.precision ∧ x'.recall ≤ x.recall ∧ x'.f1 ≤ x.f1 := by
  constructor
  · intro m m' hm hm'
    rw [e.accuracy_value hL hm, e'.accuracy_value hL' hm', (h.map _).sum_eq, h.length_eq, List.map_cons, List.sum_cons, List.length_cons,
      soft_miss hr c.gt, Nat.zero_add]
    rcases quot_shrinks ((history e.calls).map (fun c => specTP [c] t false c.gt)).sum (history e.calls).length 1 with h1 | h1
    · exact h1
    · rw [List.length_eq_zero_iff.1 h1]
      unfold Verif.Segmentation.ratio
      simp
  · intro v x x' hx hx'
    obtain ⟨p1, r1, f1'⟩ := e.label_metrics hL hx
    obtain ⟨p2, r2, f2'⟩ := e'.label_metrics hL' hx'
    obtain ⟨c1, c2, c3⟩ := more_counts h t false v
    have a1 := soft_miss hr v
    have hp : x'.precision ≤ x.precision := by
      rw [p1, p2, c1, c2, a1, Nat.zero_add, Nat.add_comm (specFP [c] t false v), ← Nat.add_assoc]
      exact quot_shrinks' (Nat.le_add_right _ _) _
    have hrec : x'.recall ≤ x.recall := by
      rw [r1, r2, c1, c3, a1, Nat.zero_add, Nat.add_comm (specFN [c] t false v), ← Nat.add_assoc]
      exact quot_shrinks' (Nat.le_add_right _ _) _
    refine ⟨hp, hrec, ?_⟩
    rw [f1', f2']
    exact f1_mono (p2 ▸ quot_nonneg _ _) (r2 ▸ quot_nonneg _ _) hp hrec

/-- The condition of `C128_soft_right_partial` holds for a cat that is scored 9/10, that of `C128_soft_wrong` for one that is scored 1/10. -/
example : HitsOnly (1 / 2) ⟨"b", "cat", ["cat", "dog"], [9/10, 1/10], ""⟩ ∧ Misses (1 / 2) ⟨"b", "cat", ["cat", "dog"], [1/10, 9/10], ""⟩ := by
  refine ⟨⟨⟨0, rfl, ⟨9/10, rfl, by norm_num, by norm_num⟩, by simp⟩, ?_⟩, ?_⟩
  · rintro (_ | _ | i) p hp ⟨⟨s, hs, h1, _⟩, _⟩
    · exact (Option.some.inj hp).symm
    · obtain rfl := Option.some.inj hs
      norm_num at h1
    · simp at hp
  · rintro (_ | _ | i) hp ⟨⟨s, hs, h1, _⟩, _⟩
    · obtain rfl := Option.some.inj hs
      norm_num at h1
    · simp at hp
    · simp at hp

/-- What a user expects of a datum that is classified correctly. -/
def HitsHelp (P : Classif → Prop) : Prop :=
  ∀ (e e' : Built) (c : Classif) (t : Rat), OneMore e e' c → e.labels.length ≤ 100000 → e'.labels.length ≤ 100000 → Hits t c → P c →
    ∀ v x x', e.metricsOf t true v = some x → e'.metricsOf t true v = some x' → x.recall ≤ x'.recall

/-- A cat that is recognised. -/
def catCalls : List (List Classif) := [[⟨"a", "cat", ["cat"], [1], ""⟩]]

/-- One more, whose prediction lists the label twice. -/
def catCalls' : List (List Classif) := [[⟨"a", "cat", ["cat"], [1], ""⟩, ⟨"b", "cat", ["cat", "cat"], [9/10, 1/10], ""⟩]]

theorem cat_right {c : Classif} (hs : c.scores ≠ []) (hp : c.preds[argmax c.scores]? = some c.gt) {s : Rat} (h : c.scores[argmax c.scores]? = some s)
    {t : Rat} (ht : t ≤ s) (h0 : 1 / 100000000 < |s|) : Hits t c :=
  ⟨_, (isWinner_argmax hs _).2 rfl, hp, s, h, ht, h0⟩

/-- **C128 is false of the code** for a datum that lists its ground truth twice: it is classified correctly and the recall drops from 1 to 2/3. -/
theorem C128_violation : ¬ HitsHelp (fun _ => True) := by
  intro h
  have hh : history catCalls' = history catCalls ++ [⟨"b", "cat", ["cat", "cat"], [9/10, 1/10], ""⟩] := by decide +kernel
  have r1 : computePrecisionRecall (Loader.init.addAll catCalls).rows [1 / 2] true (Loader.init.addAll catCalls).labels.length none
    = some [⟨1, [⟨⟨1, 0, 0, 0⟩, 1, 1, 1⟩]⟩] := by decide +kernel
  have r2 : computePrecisionRecall (Loader.init.addAll catCalls').rows [1 / 2] true (Loader.init.addAll catCalls').labels.length none
    = some [⟨1, [⟨⟨2, 0, 1, 0⟩, 1, 2 / 3, 4 / 5⟩]⟩] := by decide +kernel
  have := h ⟨catCalls, by decide +kernel, (Loader.init.addAll catCalls).rows, ⟨List.Perm.refl _, by decide +kernel⟩⟩
    ⟨catCalls', by decide +kernel, (Loader.init.addAll catCalls').rows, ⟨List.Perm.refl _, by decide +kernel⟩⟩
    ⟨"b", "cat", ["cat", "cat"], [9/10, 1/10], ""⟩ (1 / 2)
    (by show (history catCalls').Perm (_ :: history catCalls); rw [hh]; exact List.perm_append_singleton _ _)
    (by show (Loader.init.addAll catCalls).labels.length ≤ 100000; decide +kernel)
    (by show (Loader.init.addAll catCalls').labels.length ≤ 100000; decide +kernel)
    (cat_right (by simp) (by decide +kernel) (s := 9/10) (by decide +kernel) (by norm_num) (by norm_num)) trivial "cat"
    ⟨⟨1, 0, 0, 0⟩, 1, 1, 1⟩ ⟨⟨2, 0, 1, 0⟩, 1, 2 / 3, 4 / 5⟩
    (by unfold Built.metricsOf Built.metrics Built.labels; dsimp only; rw [r1]; decide +kernel)
    (by unfold Built.metricsOf Built.metrics Built.labels; dsimp only; rw [r2]; decide +kernel)
  norm_num at this

/-- The hypotheses of `C128_right_partial` and of `C128_wrong` hold for one more cat that is, or is not, recognised among a cat and a dog. -/
example : ∃ e e' e'' : Built, OneMore e e' ⟨"b", "cat", ["cat", "dog"], [9/10, 1/10], ""⟩ ∧ Hits (1 / 2) ⟨"b", "cat", ["cat", "dog"], [9/10, 1/10], ""⟩ ∧
    OneMore e e'' ⟨"b", "cat", ["cat", "dog"], [1/10, 9/10], ""⟩ ∧ ¬ Hits (1 / 2) ⟨"b", "cat", ["cat", "dog"], [1/10, 9/10], ""⟩ ∧
    e.labels.length ≤ 100000 ∧ e'.labels.length ≤ 100000 ∧ e''.labels.length ≤ 100000 ∧ e.labels = ["cat", "dog"] := by
  have hh1 : history [[⟨"b", "cat", ["cat", "dog"], [9/10, 1/10], ""⟩], petCalls.flatten] = ⟨"b", "cat", ["cat", "dog"], [9/10, 1/10], ""⟩ :: history petCalls := by
    decide +kernel
  have hh2 : history [[⟨"b", "cat", ["cat", "dog"], [1/10, 9/10], ""⟩], petCalls.flatten] = ⟨"b", "cat", ["cat", "dog"], [1/10, 9/10], ""⟩ :: history petCalls := by
    decide +kernel
  refine ⟨⟨petCalls, by decide +kernel, (Loader.init.addAll petCalls).rows, ⟨List.Perm.refl _, by decide +kernel⟩⟩,
    ⟨[[⟨"b", "cat", ["cat", "dog"], [9/10, 1/10], ""⟩], petCalls.flatten], by decide +kernel, _, ⟨List.Perm.refl _, by decide +kernel⟩⟩,
    ⟨[[⟨"b", "cat", ["cat", "dog"], [1/10, 9/10], ""⟩], petCalls.flatten], by decide +kernel, _, ⟨List.Perm.refl _, by decide +kernel⟩⟩,
    by unfold OneMore; dsimp only; rw [hh1], cat_right (by simp) (by decide +kernel) (s := 9/10) (by decide +kernel) (by norm_num) (by norm_num),
    by unfold OneMore; dsimp only; rw [hh2], ?_, by unfold Built.labels; decide +kernel, by unfold Built.labels; decide +kernel,
    by unfold Built.labels; decide +kernel, by unfold Built.labels; decide +kernel⟩
  rintro ⟨i, hw, hp, _⟩
  rw [isWinner_argmax (by simp)] at hw
  have e : argmax [(1 : Rat) / 10, 9 / 10] = 1 := by decide +kernel
  have : i = 1 := hw.symm.trans e
  subst this
  simp at hp

end Verif.Classification
