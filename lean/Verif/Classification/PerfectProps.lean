import Verif.Classification.ReportProps
import Verif.Classification.MonotoneProps
import Verif.Classification.RocProps

/-! # C82: perfect classifications -/

namespace Verif.Classification

/-- The prediction of the ground truth label is made, and no other: the labels of the classification are distinct and the only
prediction that counts at threshold `t` is that of the ground truth. -/
structure Right (t : Rat) (hm : Bool) (c : Classif) : Prop where
  distinct : c.preds.Nodup
  own : ∃ i, c.preds[i]? = some c.gt ∧ Made t hm c i ∧ ∀ j, Made t hm c j → j = i

/-- With winner-take-all it is enough that the prediction with the highest score is the ground truth and reaches the threshold. -/
theorem right_of_winner {t : Rat} {c : Classif} (hnd : c.preds.Nodup) {i : Nat} (hg : c.preds[i]? = some c.gt) (hw : IsWinner c i)
    {s : Rat} (hs : c.scores[i]? = some s) (ht : t ≤ s) (h0 : 1 / 100000000 < s) : Right t true c := by
  refine ⟨hnd, i, hg, ⟨⟨s, hs, ht, lt_of_lt_of_le h0 (le_abs_self s)⟩, fun _ => hw⟩, ?_⟩
  rintro j ⟨_, hj⟩
  obtain ⟨v, h1, h2, h3⟩ := hj rfl
  obtain ⟨w, k1, k2, k3⟩ := hw
  rcases lt_trichotomy j i with h | h | h
  · have := k3 j h v h1
    have := h2 w (List.mem_of_getElem? k1)
    linarith
  · exact h
  · have := h3 i h w k1
    have := k2 v (List.mem_of_getElem? h1)
    linarith

/-- Without winner-take-all the scores of the other labels must stay below the threshold. -/
theorem right_of_scores {t : Rat} {c : Classif} (hnd : c.preds.Nodup) {i : Nat} (hg : c.preds[i]? = some c.gt)
    {s : Rat} (hs : c.scores[i]? = some s) (ht : t ≤ s) (h0 : 1 / 100000000 < s)
    (hother : ∀ j s', c.scores[j]? = some s' → j ≠ i → s' < t) : Right t false c := by
  refine ⟨hnd, i, hg, ⟨⟨s, hs, ht, lt_of_lt_of_le h0 (le_abs_self s)⟩, fun h => absurd h (by simp)⟩, ?_⟩
  rintro j ⟨⟨s', h1, h2, _⟩, _⟩
  by_contra hne
  have := hother j s' h1 hne
  linarith

theorem right_index {t : Rat} {hm : Bool} {c : Classif} (h : Right t hm c) {i : Nat} {P : String} (hP : c.preds[i]? = some P) :
    Made t hm c i ↔ P = c.gt := by
  obtain ⟨hnd, w, h1, h2, h3⟩ := h
  constructor
  · intro hi
    have := h3 i hi
    subst this
    rw [h1] at hP
    exact (Option.some.inj hP).symm
  · rintro rfl
    have h4 := (List.getElem?_eq_some_iff.1 hP)
    have h5 := (List.getElem?_eq_some_iff.1 h1)
    have : i = w := (List.Nodup.getElem_inj_iff hnd (hi := h4.1) (hj := h5.1)).1 (h4.2.trans h5.2.symm)
    subst this
    exact h2

theorem right_counts {cs : List Classif} {t : Rat} {hm : Bool} (h : ∀ c ∈ cs, Right t hm c) (l : String) :
    specTP cs t hm l = cs.countP (fun c => decide (c.gt = l)) ∧ specFP cs t hm l = 0 ∧ specFN cs t hm l = 0 := by
  classical
  refine ⟨?_, ?_, ?_⟩
  · unfold specTP
    induction cs with
    | nil => rfl
    | cons c cs ih =>
      rw [List.map_cons, List.sum_cons, ih (fun d hd => h d (by simp [hd])), List.countP_cons, Nat.add_comm]
      congr 1
      have hc := h c (by simp)
      obtain ⟨i, h1, h2, h3⟩ := hc.own
      rw [countP_range_unique (List.getElem?_eq_some_iff.1 h1).1 (w := i)
        (by intro j hj; rw [decide_eq_true_eq] at hj; exact h3 j hj.2.2)]
      by_cases he : c.gt = l
      · rw [if_pos (by rw [decide_eq_true_eq]; exact ⟨he, he ▸ h1, h2⟩), if_pos (by simpa using he)]
      · rw [if_neg (by rw [decide_eq_true_eq]; exact fun x => he x.1), if_neg (by simpa using he)]
  · unfold specFP
    rw [List.sum_eq_zero_iff]
    intro y hy
    obtain ⟨c, hc, rfl⟩ := List.mem_map.1 hy
    rw [List.countP_eq_zero]
    intro i _
    rw [decide_eq_true_eq]
    rintro ⟨h1, h2, h3⟩
    exact h1 ((right_index (h c hc) h2).1 h3).symm
  · unfold specFN
    rw [List.countP_eq_zero]
    intro c hc
    rw [decide_eq_true_eq]
    rintro ⟨h1, i, P, h2, h3⟩
    have := right_index (h c hc) h2
    subst h1
    tauto

theorem sum_right {cs : List Classif} {t : Rat} {hm : Bool} (h : ∀ c ∈ cs, Right t hm c) :
    (cs.map (fun c => specTP [c] t hm c.gt)).sum = cs.length := by
  induction cs with
  | nil => rfl
  | cons c cs ih =>
    rw [List.map_cons, List.sum_cons, ih (fun d hd => h d (by simp [hd])),
      (right_counts (cs := [c]) (by simpa using h c (by simp)) c.gt).1]
    simp; omega

/-- **C82 (classification report).** For every history, every cut of the rows into datum-aligned tables and every non-empty list
of thresholds: if at every threshold exactly the ground truth label of each datum is predicted, then every accuracy is 1, the
counts of a label are its number of datums as true positives and no false positive or false negative, and its precision, recall and F1 are
1, or 0 for a label that is no datum's ground truth. -/
theorem C82_classification_report (calls : List (List Classif)) (hv : ∀ c ∈ calls.flatten, c.valid = true)
    (hL : (Loader.init.addAll calls).labels.length ≤ 100000) (hne : history calls ≠ []) (hsmall : (history calls).length ≤ 1000000000)
    {frags : List (List Row)} (hf : FragmentsOf frags (Loader.init.addAll calls).rows.flatten) {ts : List Rat} (hts : ts ≠ []) (hm : Bool)
    (hright : ∀ t ∈ ts, ∀ c ∈ history calls, Right t hm c) :
    let labels := evalLabels frags
    let n (l : String) := (history calls).countP (fun c => decide (c.gt = l))
    let one (l : String) : Rat := if n l = 0 then 0 else 1
    ∃ R, reportPrecisionRecall frags ts hm labels = some R ∧
      R.accuracy = ts.map (fun t => ⟨"Accuracy", .number 1, some t, some hm, none⟩) ∧
      R.counts = labels.flatMap (fun lb => ts.map (fun t =>
        ⟨"Counts", .counts (n lb.2) 0 0 (specTN (history calls) t hm lb.2), some t, some hm, some lb.2⟩)) ∧
      R.precision = labels.flatMap (fun lb => ts.map (fun t => ⟨"Precision", .number (one lb.2), some t, some hm, some lb.2⟩)) ∧
      R.recall = labels.flatMap (fun lb => ts.map (fun t => ⟨"Recall", .number (one lb.2), some t, some hm, some lb.2⟩)) ∧
      R.f1 = labels.flatMap (fun lb => ts.map (fun t => ⟨"F1", .number (one lb.2), some t, some hm, some lb.2⟩)) := by
  intro labels n one
  obtain ⟨_, R, h1, h2, h3, h4, h5, h6⟩ := C64_report calls hv hL hf hts hm
  have hc := fun t ht l => right_counts (hright t ht) l
  have hlen : ((history calls).length : Rat) ≠ 0 := by
    exact_mod_cast fun e => hne (List.length_eq_zero_iff.1 e)
  have key : ∀ (f g : Nat × String → Rat → Metric), (∀ lb ∈ labels, ∀ t ∈ ts, f lb t = g lb t) →
      labels.flatMap (fun lb => ts.map (f lb)) = labels.flatMap (fun lb => ts.map (g lb)) := by
    intro f g hfg
    rw [List.flatMap_def, List.flatMap_def]
    congr 1
    apply List.map_congr_left
    intro lb hlb
    exact List.map_congr_left (hfg lb hlb)
  have hdiv : ∀ l, ((n l : Nat) : Rat) / (n l : Rat) = one l := by
    intro l
    simp only [one]
    split
    · next e => rw [e]; simp
    · next e => exact div_self (by exact_mod_cast e)
  refine ⟨R, h1, ?_, ?_, ?_, ?_, ?_⟩
  · rw [h2]
    apply List.map_congr_left
    intro t ht
    have := sum_right (hright t ht)
    have e : (((history calls).map (fun c => specTP [c] t hm c.gt)).sum : Rat) = ((history calls).length : Rat) := by exact_mod_cast this
    rw [e, div_self hlen]
  · rw [h3]
    apply key
    intro lb _ t ht
    obtain ⟨a, b, c⟩ := hc t ht lb.2
    rw [a, b, c]
  · rw [h4]
    apply key
    intro lb _ t ht
    obtain ⟨a, b, c⟩ := hc t ht lb.2
    rw [a, b, Nat.cast_zero, add_zero]
    rw [show (_ / _ : Rat) = one lb.2 from hdiv lb.2]
  · rw [h5]
    apply key
    intro lb _ t ht
    obtain ⟨a, b, c⟩ := hc t ht lb.2
    rw [a, c, Nat.cast_zero, add_zero]
    rw [show (_ / _ : Rat) = one lb.2 from hdiv lb.2]
  · rw [h6 (by
      intro t ht lb _
      obtain ⟨a, b, c⟩ := hc t ht lb.2
      rw [a, b]
      exact le_trans List.countP_le_length hsmall)]
    apply key
    intro lb _ t ht
    obtain ⟨a, b, c⟩ := hc t ht lb.2
    rw [a, b, c, Nat.cast_zero, add_zero, add_zero, mul_div_mul_left _ _ two_ne_zero]
    rw [show (_ / _ : Rat) = one lb.2 from hdiv lb.2]

open Classical in
/-- **C82 (accuracy, winner-take-all).** The accuracy is 1 exactly when the prediction with the highest score is the ground
truth and reaches the threshold, for every datum. -/
theorem C82_classification_accuracy (calls : List (List Classif)) (hv : ∀ c ∈ calls.flatten, c.valid = true)
    (hL : (Loader.init.addAll calls).labels.length ≤ 100000) (hne : history calls ≠ []) (frags : List (List Row))
    (hf : FragmentsOf frags (Loader.init.addAll calls).rows.flatten) (t : Rat) :
    (computePrecisionRecall frags [t] true (Loader.init.addAll calls).labels.length none).map (fun r => r.map ThresholdMetrics.accuracy) = some [1]
      ↔ ∀ c ∈ history calls, ∃ i s, c.preds[i]? = some c.gt ∧ IsWinner c i ∧ c.scores[i]? = some s ∧ t ≤ s ∧ 1 / 100000000 < |s| := by
  obtain ⟨m, h1, _, _, h7⟩ := C16_accuracy_hardmax calls hv hL trivial hne frags hf t
  have hlen : (history calls).length ≠ 0 := fun e => hne (List.length_eq_zero_iff.1 e)
  have hlen' : ((history calls).length : Rat) ≠ 0 := by exact_mod_cast hlen
  have hmade : ∀ c : Classif, (∃ i, c.preds[i]? = some c.gt ∧ Made t true c i) ↔
      ∃ i s, c.preds[i]? = some c.gt ∧ IsWinner c i ∧ c.scores[i]? = some s ∧ t ≤ s ∧ 1 / 100000000 < |s| := by
    intro c
    constructor
    · rintro ⟨i, a, ⟨s, b1, b2, b3⟩, d⟩
      exact ⟨i, s, a, d rfl, b1, b2, b3⟩
    · rintro ⟨i, s, a, d, b1, b2, b3⟩
      exact ⟨i, a, ⟨s, b1, b2, b3⟩, fun _ => d⟩
  rw [h1]
  simp only [Option.map_some, List.map_cons, List.map_nil, Option.some.injEq, List.cons.injEq, and_true]
  have : m.accuracy = 1 ↔ (history calls).countP (fun c => decide (∃ i, c.preds[i]? = some c.gt ∧ Made t true c i)) = (history calls).length := by
    rw [← Nat.cast_inj (R := Rat), ← h7]
    constructor
    · intro e; rw [e, one_mul]
    · intro e
      exact mul_right_cancel₀ hlen' (e.trans (one_mul _).symm)
  rw [this, List.countP_eq_length]
  simp only [decide_eq_true_eq, hmade]

theorem mannWhitney_one {P N : List Rat} (hP : P ≠ []) (hN : N ≠ []) (h : ∀ p ∈ P, ∀ n ∈ N, n < p) : mannWhitney P N = 1 := by
  have h1 : ∀ n ∈ N, (P.map (fun p => if n < p then 1 else if p = n then (1 / 2 : Rat) else 0)).sum = (P.length : Rat) := by
    intro n hn
    rw [List.map_congr_left (g := fun _ => (1 : Rat)) (fun p hp => if_pos (h p hp n hn))]
    simp
  have hP' : (P.length : Rat) ≠ 0 := by exact_mod_cast fun e => hP (List.length_eq_zero_iff.1 e)
  have hN' : (N.length : Rat) ≠ 0 := by exact_mod_cast fun e => hN (List.length_eq_zero_iff.1 e)
  unfold mannWhitney
  rw [List.map_congr_left h1]
  simp only [List.map_const', List.sum_replicate, nsmul_eq_mul]
  rw [mul_comm, div_self (mul_ne_zero hP' hN')]

/-- **C82 (ROC area).** If every datum of a label scores the label higher than every other datum does, then the ROC area of the label is 1.
Conditions as for C21: distinct labels, the label scored for its own datums, the highest score is not 0, and no chunk of the curve cache ends
right after the label's first row. -/
theorem C82_rocauc_partial (calls : List (List Classif)) (hv : ∀ c ∈ calls.flatten, c.valid = true)
    (hnd : ∀ c ∈ history calls, c.preds.Nodup) {l : String} (hl : ∀ c ∈ history calls, c.gt = l → l ∈ c.preds)
    (hP : positives (history calls) l ≠ []) (hN : negatives (history calls) l ≠ [])
    (habove : ∀ p ∈ positives (history calls) l, ∀ n ∈ negatives (history calls) l, n < p)
    {top : Rat} (htop : top ∈ positives (history calls) l ++ negatives (history calls) l) (htop0 : top ≠ 0)
    (hmax : ∀ s ∈ positives (history calls) l ++ negatives (history calls) l, s ≤ top)
    {frags : List (List Row)} (hf : FragmentsOf frags (Loader.init.addAll calls).rows.flatten)
    {tables : List (List IRow)} (hperm : tables.flatten.Perm ((Loader.init.addAll calls).rows.flatten.map irow))
    (hsort : tables.flatten.Pairwise (fun a b => b.score ≤ a.score)) {chunks : List (List RocRow)}
    (hchunks : chunks.flatten = rocCurve (List.range (Loader.init.addAll calls).labels.length) (Loader.init.addAll calls).labels.length tables)
    (hcut : NoCut ((Loader.init.addAll calls).labels.idxOf l) chunks) :
    rocauc frags chunks ((Loader.init.addAll calls).labels.idxOf l) = 1 := by
  rw [C21_rocauc_partial calls hv hnd hl htop htop0 hmax hf hperm hsort hchunks hcut]
  exact mannWhitney_one hP hN habove

/-- Three datums whose ground truth has the highest score, two of them the same. -/
def perfectClassifs : List (List Classif) :=
  [[⟨"d", "cat", ["cat", "dog"], [9/10, 1/10], ""⟩, ⟨"e", "dog", ["cat", "dog"], [1/4, 3/4], ""⟩], [⟨"f", "cat", ["dog", "cat", "bird"], [1/10, 8/10, 1/10], ""⟩]]

/-- The hypotheses of the theorems hold for these datums, with winner-take-all and without. -/
example : ∀ t ∈ [1/2, (3/10 : Rat)], ∀ hm, ∀ c ∈ history perfectClassifs, Right t hm c := by
  intro t ht hm c hc
  have ht' : t = 1/2 ∨ t = 3/10 := by simpa using ht
  have hc' : c = ⟨"d", "cat", ["cat", "dog"], [9/10, 1/10], ""⟩ ∨ c = ⟨"e", "dog", ["cat", "dog"], [1/4, 3/4], ""⟩ ∨
      c = ⟨"f", "cat", ["dog", "cat", "bird"], [1/10, 8/10, 1/10], ""⟩ := by
    have e : history perfectClassifs = perfectClassifs.flatten := by decide +kernel
    rw [e] at hc
    simpa only [perfectClassifs, List.flatten_cons, List.flatten_nil, List.append_nil, List.cons_append, List.nil_append, List.mem_cons,
      List.not_mem_nil, or_false] using hc
  have key : ∀ (w : Nat) (s : Rat), c.preds.Nodup → c.preds[w]? = some c.gt → c.scores[w]? = some s → 1/2 ≤ s → argmax c.scores = w →
      (∀ j s', c.scores[j]? = some s' → j ≠ w → s' ≤ 1/4) → Right t hm c := by
    intro w s h1 h2 h3 h4 h5 h6
    have hts : t ≤ s ∧ 1/4 < t := by rcases ht' with rfl | rfl <;> constructor <;> linarith
    cases hm with
    | true =>
      exact right_of_winner h1 h2 ((isWinner_argmax (by intro e; rw [e] at h3; simp at h3) w).2 h5) h3 hts.1 (by linarith)
    | false =>
      exact right_of_scores h1 h2 h3 hts.1 (by linarith) (fun j s' a b => lt_of_le_of_lt (h6 j s' a b) hts.2)
  rcases hc' with rfl | rfl | rfl
  · refine key 0 (9/10) (by decide) rfl rfl (by norm_num) (by decide +kernel) ?_
    rintro (_ | _ | j) s' h hne
    · exact absurd rfl hne
    · simp at h; rw [← h]; norm_num
    · simp at h
  · refine key 1 (3/4) (by decide) rfl rfl (by norm_num) (by decide +kernel) ?_
    rintro (_ | _ | j) s' h hne
    · simp at h; rw [← h]; norm_num
    · exact absurd rfl hne
    · simp at h
  · refine key 1 (8/10) (by decide) rfl rfl (by norm_num) (by decide +kernel) ?_
    rintro (_ | _ | _ | j) s' h hne
    · simp at h; rw [← h]; norm_num
    · exact absurd rfl hne
    · simp at h; rw [← h]; norm_num
    · simp at h

example : (∀ c ∈ perfectClassifs.flatten, c.valid = true) ∧ (history perfectClassifs).length = 3 ∧
    (Loader.init.addAll perfectClassifs).labels = ["cat", "dog", "bird"] := by
  decide +kernel

example : positives (history perfectClassifs) "cat" = [9/10, 8/10] ∧ negatives (history perfectClassifs) "cat" = [1/4] := by
  decide +kernel

end Verif.Classification
