import Verif.Classification.ShardProps

/-!
# C118: accuracy is the average of the labels

(`classification/computation.py` 89-233, `classification/evaluator.py` 569-627)
-/

namespace Verif.Classification

theorem sum_one {L : List String} (hnd : L.Nodup) {x : String} (hx : x ∈ L) {f : String → Nat} (hz : ∀ l ∈ L, l ≠ x → f l = 0) :
    (L.map f).sum = f x := by
  induction L with
  | nil => exact absurd hx (by simp)
  | cons y L ih =>
    obtain ⟨hy, hnd⟩ := List.nodup_cons.1 hnd
    rw [List.map_cons, List.sum_cons]
    rcases List.mem_cons.1 hx with h1 | h1
    · have : (L.map f).sum = 0 := by
        rw [List.sum_eq_zero_iff]
        intro z hz'
        obtain ⟨l, hl, rfl⟩ := List.mem_map.1 hz'
        exact hz l (List.mem_cons_of_mem _ hl) (fun h => hy (h1 ▸ h ▸ hl))
      rw [this, h1, Nat.add_zero]
    · rw [ih hnd h1 (fun l hl => hz l (List.mem_cons_of_mem _ hl)), hz y List.mem_cons_self (fun h => hy (h ▸ h1)), Nat.zero_add]

section

variable {L : List String} {c : Classif} {t : Rat}

/-- The winner: its place and its label. -/
theorem winner_place (h : Covers L c) : ∃ w p, w < c.preds.length ∧ c.preds[w]? = some p ∧ p ∈ L ∧ ∀ i, Made t true c i → i = w := by
  obtain ⟨v, h1, _⟩ := argmax_spec c.scores h.scores_ne
  have hlt : argmax c.scores < c.preds.length := by
    rw [h.valid]
    exact (List.getElem?_eq_some_iff.1 h1).1
  refine ⟨argmax c.scores, _, hlt, List.getElem?_eq_getElem hlt, h.preds _ (List.getElem_mem hlt), ?_⟩
  rintro i ⟨_, hi⟩
  exact ((isWinner_argmax h.scores_ne i).1 (hi rfl)).symm

theorem predicted_single (h : Covers L c) (l : String) :
    (specTP [c] t true l + specFP [c] t true l = 1 ∨ specTP [c] t true l + specFP [c] t true l = 0) ∧
    (specTP [c] t true l + specFP [c] t true l = 1 ↔ ∃ i, c.preds[i]? = some l ∧ Made t true c i) := by
  classical
  obtain ⟨w, p, hw, hp, _, hu⟩ := winner_place (t := t) h
  simp only [specTP, specFP, List.map_cons, List.map_nil, List.sum_cons, List.sum_nil, Nat.add_zero]
  rw [countP_range_unique hw (by intro i hi; rw [decide_eq_true_eq] at hi; exact hu i hi.2.2),
    countP_range_unique hw (by intro i hi; rw [decide_eq_true_eq] at hi; exact hu i hi.2.2)]
  simp only [decide_eq_true_eq]
  have hex : (∃ i, c.preds[i]? = some l ∧ Made t true c i) ↔ c.preds[w]? = some l ∧ Made t true c w := by
    constructor
    · rintro ⟨i, h1, h2⟩
      have := hu i h2
      exact this ▸ ⟨h1, h2⟩
    · intro h
      exact ⟨w, h⟩
  rw [hex]
  by_cases hg : c.gt = l <;> by_cases hm : c.preds[w]? = some l ∧ Made t true c w <;> simp [hg, hm]

/-- A datum is predicted once if its winner reaches the threshold. -/
theorem predicted_sum (hnd : L.Nodup) (h : Covers L c) :
    (L.map (fun l => specTP [c] t true l + specFP [c] t true l)).sum ≤ 1 ∧
    ((∃ i, Made t true c i) → (L.map (fun l => specTP [c] t true l + specFP [c] t true l)).sum = 1) := by
  obtain ⟨w, p, hw, hp, hpL, hu⟩ := winner_place (t := t) h
  have hsum : (L.map (fun l => specTP [c] t true l + specFP [c] t true l)).sum = specTP [c] t true p + specFP [c] t true p := by
    refine sum_one hnd hpL (fun l _ hl => ?_)
    rcases (predicted_single (t := t) h l).1 with h1 | h1
    · obtain ⟨i, h2, h3⟩ := (predicted_single (t := t) h l).2.1 h1
      rw [hu i h3, hp] at h2
      exact absurd (Option.some.inj h2).symm hl
    · exact h1
  rw [hsum]
  constructor
  · rcases (predicted_single (t := t) h p).1 with h1 | h1 <;> omega
  · rintro ⟨i, hi⟩
    rw [(predicted_single (t := t) h p).2]
    exact ⟨w, hp, hu i hi ▸ hi⟩

theorem specFN_other {l : String} (hl : l ≠ c.gt) : specFN [c] t true l = 0 := by
  classical
  simp only [specFN, List.countP_eq_zero, List.mem_singleton, decide_eq_true_eq]
  rintro d rfl ⟨hd, _⟩
  exact hl hd.symm

theorem specTP_other {l : String} (hl : l ≠ c.gt) : specTP [c] t true l = 0 := by
  classical
  simp only [specTP, List.map_cons, List.map_nil, List.sum_cons, List.sum_nil, Nat.add_zero, List.countP_eq_zero, decide_eq_true_eq]
  intro i _ hh
  exact hl hh.1.symm

theorem specTP_le (h : Covers L c) (l : String) : specTP [c] t true l ≤ 1 := by
  rcases (predicted_single (t := t) h l).1 with h1 | h1 <;> omega

theorem specTP_iff (h : Covers L c) : specTP [c] t true c.gt = 1 ↔ ∃ i, c.preds[i]? = some c.gt ∧ Made t true c i := by
  classical
  have hz : specFP [c] t true c.gt = 0 := by
    simp [specFP]
  rw [← (predicted_single (t := t) h c.gt).2, hz, Nat.add_zero]

/-- A datum whose winner reaches the threshold is found or missed. -/
theorem truth_single (h : Covers L c) (hn : c.preds.Nodup) (hm : ∃ i, Made t true c i) : specTP [c] t true c.gt + specFN [c] t true c.gt = 1 := by
  classical
  obtain ⟨w, p, hw, hp, _, hu⟩ := winner_place (t := t) h
  obtain ⟨i, hi⟩ := hm
  obtain rfl := hu i hi
  have h1 := specTP_le (t := t) h c.gt
  have h2 := specTP_iff (t := t) h
  simp only [specFN, List.countP_cons, List.countP_nil, Nat.zero_add, true_and, decide_eq_true_eq]
  by_cases hpg : p = c.gt
  · have : specTP [c] t true c.gt = 1 := h2.2 ⟨i, hpg ▸ hp, hi⟩
    rw [this, if_neg]
    rintro ⟨j, P, hj, hP⟩
    rcases hP with ⟨hP, hj'⟩ | ⟨hP, hj'⟩
    · apply hj'
      have hij : j = i := by
        have hjl := (List.getElem?_eq_some_iff.1 hj).1
        refine (List.Nodup.getElem_inj_iff hn (hi := hjl) (hj := hw)).1 (Option.some.inj ?_)
        rw [← List.getElem?_eq_getElem, ← List.getElem?_eq_getElem, hj, hp, hP, hpg]
      exact hij ▸ hi
    · rw [hu j hj', hp] at hj
      exact hP ((Option.some.inj hj).symm.trans hpg)
  · have : specTP [c] t true c.gt = 0 := by
      by_contra hne
      obtain ⟨j, hj, hj'⟩ := h2.1 (by omega)
      rw [hu j hj', hp] at hj
      exact hpg (Option.some.inj hj)
    rw [this, if_pos]
    exact ⟨i, p, hp, Or.inr ⟨hpg, hi⟩⟩

theorem truth_sum (hnd : L.Nodup) (h : Covers L c) (hn : c.preds.Nodup) (hm : ∃ i, Made t true c i) :
    (L.map (fun l => specTP [c] t true l + specFN [c] t true l)).sum = 1 := by
  rw [sum_one hnd h.gt (fun l _ hl => by rw [specTP_other hl, specFN_other hl])]
  exact truth_single h hn hm

end

theorem spec_sums (L : List String) (cs : List Classif) (t : Rat) :
    (L.map (fun l => specTP cs t true l + specFP cs t true l)).sum
      = (cs.map (fun c => (L.map (fun l => specTP [c] t true l + specFP [c] t true l)).sum)).sum ∧
    (L.map (fun l => specTP cs t true l + specFN cs t true l)).sum
      = (cs.map (fun c => (L.map (fun l => specTP [c] t true l + specFN [c] t true l)).sum)).sum := by
  induction cs with
  | nil => simp [specTP, specFP, specFN]
  | cons c cs ih =>
    have e := spec_cons c cs t true
    simp only [Counts.add, Counts.mk.injEq] at e
    rw [List.map_cons, List.sum_cons, List.map_cons, List.sum_cons, ← ih.1, ← ih.2, ← map_add_sum, ← map_add_sum]
    constructor
    · congr 1
      apply List.map_congr_left
      intro l _
      rw [(e l).1, (e l).2.1]
      omega
    · congr 1
      apply List.map_congr_left
      intro l _
      rw [(e l).1, (e l).2.2.1]
      omega

/-- Some score reaches the threshold and is not (nearly) zero. -/
def Reaches (t : Rat) (c : Classif) : Prop := ∃ s ∈ c.scores, t ≤ s ∧ 1 / 100000000 < s

theorem reaches_made {L : List String} {c : Classif} (h : Covers L c) {t : Rat} (hr : Reaches t c) : ∃ i, Made t true c i := by
  obtain ⟨s, hs, h1, h2⟩ := hr
  obtain ⟨v, hv, hmax⟩ := argmax_spec c.scores h.scores_ne
  refine ⟨argmax c.scores, ⟨v, hv, ?_, ?_⟩, fun _ => (isWinner_argmax h.scores_ne _).2 rfl⟩
  · exact h1.trans (hmax.1 s hs)
  · exact (h2.trans_le (hmax.1 s hs)).trans_le (le_abs_self v)

theorem sum_all_one {β : Type} {l : List β} {f : β → Nat} (h : ∀ x ∈ l, f x = 1) : (l.map f).sum = l.length := by
  induction l with
  | nil => rfl
  | cons x l ih =>
    rw [List.map_cons, List.sum_cons, h x List.mem_cons_self, ih (fun y hy => h y (List.mem_cons_of_mem _ hy)), List.length_cons]
    omega

theorem sum_le_length {β : Type} {l : List β} {f : β → Nat} (h : ∀ x ∈ l, f x ≤ 1) : (l.map f).sum ≤ l.length := by
  induction l with
  | nil => exact Nat.le_refl _
  | cons x l ih =>
    rw [List.map_cons, List.sum_cons, List.length_cons]
    have := h x List.mem_cons_self
    have := ih (fun y hy => h y (List.mem_cons_of_mem _ hy))
    omega

/-- The reported labels of an evaluation. -/
theorem Built.report (e : Built) (hL : e.labels.length ≤ 100000) (t : Rat) : ∃ m, e.metrics t true = some m ∧
    m.accuracy * (history e.calls).length = ((m.labels.map (fun l => l.counts.tp)).sum : Nat) ∧
    (∀ g : Counts → Nat, m.labels.map (fun l => g l.counts) = e.labels.map (fun l => g (countsOf (history e.calls) true t l))) ∧
    ∀ v ∈ e.labels, m.labels[e.labels.idxOf v]?.map LabelMetrics.counts = some (countsOf (history e.calls) true t v) := by
  refine ⟨_, e.metrics_eq hL t true, ?_, ?_, ?_⟩
  · have h := accuracy_datums (linv_reach e.calls).nodup (covers_reach e.calls e.valid) true t
    rw [← sum_specTP (linv_reach e.calls).nodup (history e.calls) (fun c h => (covers_reach e.calls e.valid c h).gt) t true] at h
    simp only [toMetrics, List.map_map]
    exact h
  · intro g
    simp only [toMetrics, List.map_map]
    rfl
  · intro v hv
    simp only [toMetrics, List.map_map]
    rw [getElem?_idxOf_map, if_pos hv]
    rfl

/-- **C118 (micro averages).** Winner-take-all, no prediction lists a label twice, and every datum has a score that reaches the threshold: the report's
true positives add up to accuracy times the datums, and both true plus false positives and true plus false negatives add up to the datums; so precision and
recall of all labels together are the accuracy. -/
theorem C118_micro (e : Built) (hL : e.labels.length ≤ 100000) (hn : ∀ c ∈ history e.calls, c.preds.Nodup) (t : Rat)
    (hr : ∀ c ∈ history e.calls, Reaches t c) : ∃ m, e.metrics t true = some m ∧
    m.accuracy * (history e.calls).length = ((m.labels.map (fun l => l.counts.tp)).sum : Nat) ∧
    (m.labels.map (fun l => l.counts.tp + l.counts.fp)).sum = (history e.calls).length ∧
    (m.labels.map (fun l => l.counts.tp + l.counts.fn)).sum = (history e.calls).length := by
  obtain ⟨m, h1, h2, h3, _⟩ := e.report hL t
  have hcov := covers_reach e.calls e.valid
  have hnd := (linv_reach e.calls).nodup
  refine ⟨m, h1, h2, ?_, ?_⟩
  · rw [h3 (fun c => c.tp + c.fp)]
    show (e.labels.map (fun l => specTP (history e.calls) t true l + specFP (history e.calls) t true l)).sum = _
    rw [(spec_sums e.labels (history e.calls) t).1]
    exact sum_all_one (fun c hc => (predicted_sum hnd (hcov c hc)).2 (reaches_made (hcov c hc) (hr c hc)))
  · rw [h3 (fun c => c.tp + c.fn)]
    show (e.labels.map (fun l => specTP (history e.calls) t true l + specFN (history e.calls) t true l)).sum = _
    rw [(spec_sums e.labels (history e.calls) t).2]
    exact sum_all_one (fun c hc => truth_sum hnd (hcov c hc) (hn c hc) (reaches_made (hcov c hc) (hr c hc)))

/-- **C118 (micro precision).** Winner-take-all, whatever is listed: at every threshold the true and false positives add up to at most the datums, so the
precision of all labels together is at least the accuracy. -/
theorem C118_precision (e : Built) (hL : e.labels.length ≤ 100000) (t : Rat) : ∃ m, e.metrics t true = some m ∧
    m.accuracy * (history e.calls).length = ((m.labels.map (fun l => l.counts.tp)).sum : Nat) ∧
    (m.labels.map (fun l => l.counts.tp + l.counts.fp)).sum ≤ (history e.calls).length := by
  obtain ⟨m, h1, h2, h3, _⟩ := e.report hL t
  refine ⟨m, h1, h2, ?_⟩
  rw [h3 (fun c => c.tp + c.fp)]
  show (e.labels.map (fun l => specTP (history e.calls) t true l + specFP (history e.calls) t true l)).sum ≤ _
  rw [(spec_sums e.labels (history e.calls) t).1]
  exact sum_le_length (fun c hc => (predicted_sum (linv_reach e.calls).nodup (covers_reach e.calls e.valid c hc)).1)

/-- What a user expects: accuracy is the mean of the recalls of the labels, weighted by the numbers of datums with the label. -/
def WeightedRecall (P : List Classif → Prop) : Prop :=
  ∀ e : Built, e.labels.length ≤ 100000 → P (history e.calls) → ∀ t, ∃ m, e.metrics t true = some m ∧
    m.accuracy * (history e.calls).length
      = (List.zipWith (fun (l : LabelMetrics) v => l.recall * ((history e.calls).countP (fun c => decide (c.gt = v)) : Nat)) m.labels e.labels).sum

theorem zipWith_map_self {α β γ : Type} (l : List α) (f : α → β) (g : β → α → γ) : List.zipWith g (l.map f) l = l.map (fun x => g (f x) x) := by
  induction l with
  | nil => rfl
  | cons x l ih => rw [List.map_cons, List.zipWith_cons_cons, ih, List.map_cons]

theorem sum_cast (l : List Nat) : ((l.sum : Nat) : Rat) = (l.map (fun n : Nat => (n : Rat))).sum := by
  induction l with
  | nil => rfl
  | cons x l ih => rw [List.sum_cons, List.map_cons, List.sum_cons, ← ih]; push_cast; rfl

/-- **C118 (weighted recall, partial).** It holds, at every threshold, if every datum scores its ground truth and scores no label twice. Missing: datums that do not
score their ground truth, for which it is false (`C118_violation`). -/
theorem C118_weighted_partial : WeightedRecall (fun cs => ∀ c ∈ cs, c.gt ∈ c.preds ∧ c.preds.Nodup) := by
  intro e hL hP t
  have hcov := covers_reach e.calls e.valid
  refine ⟨_, e.metrics_eq hL t true, ?_⟩
  have h := accuracy_datums (linv_reach e.calls).nodup hcov true t
  rw [← sum_specTP (linv_reach e.calls).nodup (history e.calls) (fun c h => (hcov c h).gt) t true] at h
  simp only [toMetrics, List.map_map]
  refine Eq.trans h ?_
  rw [sum_cast, List.map_map]
  show _ = (List.zipWith _ (e.labels.map _) e.labels).sum
  rw [zipWith_map_self]
  congr 1
  apply List.map_congr_left
  intro v _
  have hs := tp_fn_sum (history e.calls) (fun c hc => ⟨(hcov c hc).valid, hP c hc⟩) t v
  have := (C16_precision_recall (countsOf (history e.calls) true t v)).2.2.2
  simp only [Function.comp]
  rw [← hs, Nat.cast_add]
  exact this.symm

/-- **C118 is false of the code** if a datum does not score its ground truth and its winner does not reach the threshold: it is missing from the recall of its label,
which is 1 although half of the datums are wrong. -/
theorem C118_violation : ¬ WeightedRecall (fun cs => ∀ c ∈ cs, c.preds.Nodup) := by
  intro h
  let calls : List (List Classif) := [[⟨"d", "a", ["a"], [9/10], ""⟩, ⟨"e", "a", ["b"], [1/10], ""⟩]]
  obtain ⟨m, h1, h2⟩ := h ⟨calls, by decide, (Loader.init.addAll calls).rows, ⟨List.Perm.refl _, by decide +kernel⟩⟩ (by decide +kernel) (by decide +kernel) (1 / 2)
  have h3 : computePrecisionRecall (Loader.init.addAll calls).rows [1 / 2] true (Loader.init.addAll calls).labels.length none
      = some [⟨1 / 2, [⟨⟨1, 0, 0, 0⟩, 1, 1, 1⟩, ⟨⟨0, 0, 0, 1⟩, 0, 0, 0⟩]⟩] := by decide +kernel
  unfold Built.metrics Built.labels at h1
  rw [h3] at h1
  have : m = ⟨1 / 2, [⟨⟨1, 0, 0, 0⟩, 1, 1, 1⟩, ⟨⟨0, 0, 0, 1⟩, 0, 0, 0⟩]⟩ := by simpa using h1.symm
  rw [this] at h2
  revert h2
  decide +kernel

/-! ## Two labels -/

theorem two_single {L : List String} {c : Classif} {t : Rat} {a b : String} (hab : a ≠ b) (hLab : ∀ l ∈ L, l = a ∨ l = b) (h : Covers L c) (hn : c.preds.Nodup)
    (hm : ∃ i, Made t true c i) : specFP [c] t true a = specFN [c] t true b := by
  classical
  have h1 := predicted_single (t := t) h a
  have h2 := truth_single h hn hm
  obtain ⟨w, p, hw, hp, hpL, hu⟩ := winner_place (t := t) h
  rcases hLab _ h.gt with hg | hg
  · have hz : specFP [c] t true a = 0 := by simp [specFP, hg]
    rw [hz, specFN_other (by rw [hg]; exact hab.symm)]
  · rw [hg] at h2
    have hz : specTP [c] t true a = 0 := specTP_other (by rw [hg]; exact hab)
    rw [hz, Nat.zero_add] at h1
    have h3 := specTP_iff (t := t) h
    rw [hg] at h3
    have h4 := specTP_le (t := t) h b
    obtain ⟨i, hi⟩ := hm
    obtain rfl := hu i hi
    rcases hLab _ hpL with hpa | hpb
    · have e1 := h1.2.2 ⟨i, hpa ▸ hp, hi⟩
      have e2 : specTP [c] t true b ≠ 1 := by
        intro h5
        obtain ⟨j, hj, hj'⟩ := h3.1 h5
        rw [hu j hj', hp, hpa] at hj
        exact hab (Option.some.inj hj)
      omega
    · have e1 := h3.2 ⟨i, hpb ▸ hp, hi⟩
      have e2 : specFP [c] t true a ≠ 1 := by
        intro h5
        obtain ⟨j, hj, hj'⟩ := h1.2.1 h5
        rw [hu j hj', hp, hpb] at hj
        exact hab (Option.some.inj hj).symm
      rcases h1.1 with h6 | h6 <;> omega

/-- **C118 (two labels).** In a two-label task with winner-take-all, where no prediction lists a label twice and every datum has a score that reaches the
threshold, the false positives of one label are the false negatives of the other. -/
theorem C118_two (e : Built) (hL : e.labels.length ≤ 100000) (hn : ∀ c ∈ history e.calls, c.preds.Nodup) (t : Rat) (hr : ∀ c ∈ history e.calls, Reaches t c)
    {a b : String} (hab : a ≠ b) (hLab : ∀ l ∈ e.labels, l = a ∨ l = b) : (e.counts t true a).fp = (e.counts t true b).fn := by
  rw [e.counts_eq hL, e.counts_eq hL]
  show specFP (history e.calls) t true a = specFN (history e.calls) t true b
  have hcov := covers_reach e.calls e.valid
  generalize history e.calls = cs at *
  induction cs with
  | nil => rfl
  | cons c cs ih =>
    have ea := spec_cons c cs t true a
    have eb := spec_cons c cs t true b
    simp only [Counts.add, Counts.mk.injEq] at ea eb
    rw [ea.2.1, eb.2.2.1, ih (fun d hd => hn d (List.mem_cons_of_mem _ hd)) (fun d hd => hr d (List.mem_cons_of_mem _ hd)) (fun d hd => hcov d (List.mem_cons_of_mem _ hd)),
      two_single hab hLab (hcov c List.mem_cons_self) (hn c List.mem_cons_self) (reaches_made (hcov c List.mem_cons_self) (hr c List.mem_cons_self))]

/-! ## A sample -/

/-- Three datums with two labels, two of them right. -/
def threeData : List (List Classif) :=
  [[⟨"d", "a", ["a", "b"], [3/4, 1/4], ""⟩, ⟨"e", "b", ["a", "b"], [2/3, 1/3], ""⟩], [⟨"f", "b", ["b", "a"], [4/5, 1/5], ""⟩]]

/-- The hypotheses of C118 hold for the sample. -/
example : ∃ e : Built, e.calls = threeData ∧ e.labels.length ≤ 100000 ∧ (∀ c ∈ history e.calls, c.gt ∈ c.preds ∧ c.preds.Nodup) ∧
    (∀ c ∈ history e.calls, Reaches (1 / 2) c) ∧ (∀ l ∈ e.labels, l = "a" ∨ l = "b") ∧
    e.metrics (1 / 2) true = some ⟨2 / 3, [⟨⟨1, 1, 0, 1⟩, 1 / 2, 1, 2 / 3⟩, ⟨⟨1, 0, 1, 1⟩, 1, 1 / 2, 2 / 3⟩]⟩ := by
  refine ⟨⟨threeData, by decide, (Loader.init.addAll threeData).rows, ⟨List.Perm.refl _, by decide +kernel⟩⟩, rfl, by decide +kernel, by decide +kernel, ?_,
    by decide +kernel, by decide +kernel⟩
  intro c hc
  have hc : c ∈ threeData.flatten := hc
  simp only [threeData, List.flatten_cons, List.flatten_nil, List.cons_append, List.nil_append, List.append_nil, List.mem_cons, List.not_mem_nil, or_false] at hc
  rcases hc with rfl | rfl | rfl
  · exact ⟨3/4, by simp, by norm_num, by norm_num⟩
  · exact ⟨2/3, by simp, by norm_num, by norm_num⟩
  · exact ⟨4/5, by simp, by norm_num, by norm_num⟩

end Verif.Classification
