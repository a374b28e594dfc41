import Verif.Classification.ExamplesProps

/-! # C53: counts against the confusion matrix -/

namespace Verif.Classification

/-- The full statement of C53 for histories satisfying `P`: true positives are the diagonal of the
confusion matrix, true plus false positives the sum of its column. -/
def CountsAgree (P : List Classif → Prop) : Prop :=
  ∀ (calls : List (List Classif)), (∀ c ∈ calls.flatten, c.valid = true) →
    (Loader.init.addAll calls).labels.length ≤ 100000 →
    ∀ frags, FragmentsOf frags (Loader.init.addAll calls).rows.flatten → P (history calls) →
    ∀ (t : Rat) (hm : Bool), ∃ (row : List Counts) (M : CM),
      evalCounts frags [t] hm (Loader.init.addAll calls).labels.length = some [row] ∧
      evalCM frags [t] hm (Loader.init.addAll calls).labels.length = some [M] ∧
      ∀ (i : Nat) (k : Counts), row[i]? = some k →
        (∃ m, M.cells[i]? = some m ∧ m[i]? = some k.tp) ∧
        (M.cells.map (fun m => m.getD i 0)).sum = k.tp + k.fp

/-- No label twice in one prediction, and no score that one computation takes for zero and the other
does not. -/
def Plain (cs : List Classif) : Prop :=
  ∀ c ∈ cs, c.preds.Nodup ∧ ∀ s ∈ c.scores,
    1 / 100000000 < s ∨ (-1 / 100000000 ≤ s ∧ s ≤ 1 / 1000000000)

theorem made_iff_shown {c : Classif} (h : ∀ s ∈ c.scores,
    1 / 100000000 < s ∨ (-1 / 100000000 ≤ s ∧ s ≤ 1 / 1000000000)) (t : Rat) (hm : Bool) (i : Nat) :
    Made t hm c i ↔ Shown t hm c i := by
  unfold Made Shown
  have : (∃ s, c.scores[i]? = some s ∧ t ≤ s ∧ 1 / 100000000 < |s|)
      ↔ (∃ s, c.scores[i]? = some s ∧ t ≤ s ∧ 1 / 1000000000 < s) := by
    constructor
    · rintro ⟨s, h1, h2, h3⟩
      refine ⟨s, h1, h2, ?_⟩
      rcases h s (List.mem_of_getElem? h1) with h4 | ⟨h4, h5⟩
      · linarith
      · rcases le_or_gt 0 s with h6 | h6
        · rw [abs_of_nonneg h6] at h3; linarith
        · rw [abs_of_neg h6] at h3; linarith
    · rintro ⟨s, h1, h2, h3⟩
      refine ⟨s, h1, h2, ?_⟩
      rcases h s (List.mem_of_getElem? h1) with h4 | ⟨h4, h5⟩
      · rw [abs_of_nonneg (by linarith)]; exact h4
      · linarith
  rw [this]

open Classical in
theorem count_pred {c : Classif} (hnd : c.preds.Nodup) {t : Rat} {hm : Bool} {p : String} {Q : Prop}
    (pr : Nat → Bool) (hpr : ∀ i, pr i = true ↔ (Q ∧ c.preds[i]? = some p ∧ Shown t hm c i)) :
    (List.range c.preds.length).countP pr
      = if (Q ∧ ShownLabel t hm c p) then 1 else 0 := by
  by_cases h : Q ∧ ShownLabel t hm c p
  · rw [if_pos h]
    obtain ⟨hQ, i, h1, h2⟩ := h
    have hi := (List.getElem?_eq_some_iff.1 h1).1
    rw [countP_range_unique hi]
    · rw [if_pos ((hpr i).2 ⟨hQ, h1, h2⟩)]
    · intro j hj
      rw [hpr] at hj
      have hjl := (List.getElem?_eq_some_iff.1 hj.2.1).1
      have e1 := (List.getElem?_eq_some_iff.1 hj.2.1).2
      have e2 := (List.getElem?_eq_some_iff.1 h1).2
      have e : c.preds[j] = c.preds[i] := by rw [e1, e2]
      exact hnd.getElem_inj_iff.1 e
  · rw [if_neg h, List.countP_eq_zero]
    intro i _ hi
    rw [hpr] at hi
    exact h ⟨hi.1, i, hi.2.1, hi.2.2⟩

open Classical in
theorem specTP_cell {cs : List Classif} (hP : Plain cs)
    (t : Rat) (hm : Bool) (p : String) : specTP cs t hm p = specCell cs t hm p p := by
  induction cs with
  | nil => rfl
  | cons c cs ih =>
    have i := ih (fun d hd => hP d (by simp [hd]))
    unfold specTP specCell at i ⊢
    rw [List.map_cons, List.sum_cons, i, List.countP_cons]
    rw [count_pred (t := t) (hm := hm) (p := p) (Q := c.gt = p) (hP c (by simp)).1
      (fun i => decide (c.gt = p ∧ c.preds[i]? = some p ∧ Made t hm c i))
      (fun i => by rw [decide_eq_true_eq, made_iff_shown (hP c (by simp)).2])]
    by_cases hx : c.gt = p ∧ ShownLabel t hm c p
    · rw [if_pos hx, if_pos (by rw [decide_eq_true_eq]; exact hx)]; omega
    · rw [if_neg hx, if_neg (by rw [decide_eq_true_eq]; exact hx)]; omega

open Classical in
theorem specFP_cells {L : List String} (hnd : L.Nodup) {cs : List Classif} (hP : Plain cs)
    (hv : ∀ c ∈ cs, c.gt ∈ L) (t : Rat) (hm : Bool) (p : String) :
    (L.map (fun g => specCell cs t hm g p)).sum = specTP cs t hm p + specFP cs t hm p := by
  induction cs with
  | nil => simp [specCell, specTP, specFP]
  | cons c cs ih =>
    have i := ih (fun d hd => hP d (by simp [hd])) (fun d hd => hv d (by simp [hd]))
    have e1 : ∀ g, specCell (c :: cs) t hm g p = specCell [c] t hm g p + specCell cs t hm g p := by
      intro g; simp only [specCell, List.countP_cons, List.countP_nil]; omega
    have e3 : (L.map (fun g => specCell (c :: cs) t hm g p)).sum
        = (L.map (fun g => specCell [c] t hm g p)).sum + (L.map (fun g => specCell cs t hm g p)).sum := by
      rw [← map_add_sum]
      congr 1
      exact List.map_congr_left (fun g _ => e1 g)
    rw [e3, i, sum_indicator hnd (hv c (by simp))]
    · simp only [specTP, specFP, List.map_cons, List.sum_cons]
      rw [count_pred (t := t) (hm := hm) (p := p) (Q := c.gt = p) (hP c (by simp)).1
        (fun i => decide (c.gt = p ∧ c.preds[i]? = some p ∧ Made t hm c i))
        (fun i => by rw [decide_eq_true_eq, made_iff_shown (hP c (by simp)).2])]
      rw [count_pred (t := t) (hm := hm) (p := p) (Q := c.gt ≠ p) (hP c (by simp)).1
        (fun i => decide (c.gt ≠ p ∧ c.preds[i]? = some p ∧ Made t hm c i))
        (fun i => by rw [decide_eq_true_eq, made_iff_shown (hP c (by simp)).2])]
      simp only [specCell, List.countP_cons, List.countP_nil, decide_eq_true_eq, true_and, Nat.zero_add]
      by_cases h1 : ∃ i, c.preds[i]? = some p ∧ Shown t hm c i
      · rw [if_pos h1]
        by_cases h2 : c.gt = p
        · rw [if_pos ⟨h2, h1⟩, if_neg (fun hh => hh.1 h2)]; omega
        · rw [if_neg (fun hh => h2 hh.1), if_pos ⟨h2, h1⟩]; omega
      · rw [if_neg h1, if_neg (fun hh => h1 hh.2), if_neg (fun hh => h1 hh.2)]; omega
    · intro g _ hg
      simp only [specCell, List.countP_cons, List.countP_nil, decide_eq_true_eq, Nat.zero_add]
      rw [if_neg (fun hh => hg hh.1.symm)]

/-- **C53 (partial).** The counts and the confusion matrix agree when no prediction repeats a label
and no score lies between `1e-9` and `1e-8`. -/
theorem C53_partial : CountsAgree Plain := by
  intro calls hv hL frags hf hP t hm
  have hcov := covers_reach calls hv
  refine ⟨_, _, C13_counts calls hv hL frags hf [t] hm, C19_matrix calls hv frags hf t hm, ?_⟩
  intro i k hk
  have hnd : (Loader.init.addAll calls).labels.Nodup := (linv_reach calls).nodup
  generalize (Loader.init.addAll calls).labels = L at *
  generalize history calls = cs at *
  rw [List.getElem?_map, Option.map_eq_some_iff] at hk
  obtain ⟨l, hl, rfl⟩ := hk
  constructor
  · refine ⟨L.map (fun p => specCell cs t hm l p), ?_, ?_⟩
    · simp only []
      rw [List.getElem?_map, hl]
      rfl
    · rw [List.getElem?_map, hl]
      simp only [Option.map_some, Option.some.injEq]
      exact (specTP_cell hP t hm l).symm
  · simp only [List.map_map]
    rw [← specFP_cells hnd hP (fun c hc => (hcov c hc).gt) t hm l]
    congr 1
    apply List.map_congr_left
    intro g _
    simp [hl]

/-- **C53, violated by small scores.** A score of `5e-9` is a prediction for the confusion matrix and
none for the counts. -/
theorem C53_violation : ¬ CountsAgree (fun cs => ∀ c ∈ cs, c.preds.Nodup) := by
  intro h
  obtain ⟨row, M, h1, h2, h3⟩ := h [[⟨"d", "a", ["a"], [5 / 1000000000], ""⟩]] (by decide) (by decide)
    (Loader.init.addAll [[⟨"d", "a", ["a"], [5 / 1000000000], ""⟩]]).rows
    ⟨List.Perm.refl _, by decide +kernel⟩ (by decide +kernel) 0 true
  have e1 : evalCounts (Loader.init.addAll [[⟨"d", "a", ["a"], [5 / 1000000000], ""⟩]]).rows [0] true
      (Loader.init.addAll [[⟨"d", "a", ["a"], [5 / 1000000000], ""⟩]]).labels.length
      = some [[⟨0, 0, 1, 0⟩]] := by decide +kernel
  have e2 : evalCM (Loader.init.addAll [[⟨"d", "a", ["a"], [5 / 1000000000], ""⟩]]).rows [0] true
      (Loader.init.addAll [[⟨"d", "a", ["a"], [5 / 1000000000], ""⟩]]).labels.length
      = some [⟨[[1]], [0]⟩] := by decide +kernel
  rw [e1] at h1
  rw [e2] at h2
  simp only [Option.some.injEq, List.cons.injEq, and_true] at h1 h2
  subst h1 h2
  obtain ⟨m, q1, q2⟩ := (h3 0 _ rfl).1
  simp only [List.getElem?_cons_zero, Option.some.injEq] at q1
  subst q1
  simp at q2

/-- **C53, violated by repeated labels.** A label predicted twice for a datum counts twice as true
positive and once in the matrix. -/
theorem C53_violation_repeated : ¬ CountsAgree (fun cs => ∀ c ∈ cs, ∀ s ∈ c.scores, 1 / 10 ≤ s) := by
  intro h
  obtain ⟨row, M, h1, h2, h3⟩ := h [[⟨"d", "a", ["a", "a"], [1/2, 1/4], ""⟩]] (by decide) (by decide)
    (Loader.init.addAll [[⟨"d", "a", ["a", "a"], [1/2, 1/4], ""⟩]]).rows
    ⟨List.Perm.refl _, by decide +kernel⟩ (by decide +kernel) 0 false
  have e1 : evalCounts (Loader.init.addAll [[⟨"d", "a", ["a", "a"], [1/2, 1/4], ""⟩]]).rows [0] false
      (Loader.init.addAll [[⟨"d", "a", ["a", "a"], [1/2, 1/4], ""⟩]]).labels.length
      = some [[⟨2, 0, 0, 0⟩]] := by decide +kernel
  have e2 : evalCM (Loader.init.addAll [[⟨"d", "a", ["a", "a"], [1/2, 1/4], ""⟩]]).rows [0] false
      (Loader.init.addAll [[⟨"d", "a", ["a", "a"], [1/2, 1/4], ""⟩]]).labels.length
      = some [⟨[[1]], [0]⟩] := by decide +kernel
  rw [e1] at h1
  rw [e2] at h2
  simp only [Option.some.injEq, List.cons.injEq, and_true] at h1 h2
  subst h1 h2
  obtain ⟨m, q1, q2⟩ := (h3 0 _ rfl).1
  simp only [List.getElem?_cons_zero, Option.some.injEq] at q1
  subst q1
  simp at q2

example : Plain (history sample) := by
  have : history sample = [⟨"d0", "cat", ["cat", "dog"], [1/2, 1/2], ""⟩,
      ⟨"d1", "dog", ["cat", "dog"], [9/10, 1/10], ""⟩, ⟨"d2", "dog", ["dog", "bird"], [0, 4/5], ""⟩] := by
    decide +kernel
  rw [this]
  simp [Plain]
  norm_num

end Verif.Classification
