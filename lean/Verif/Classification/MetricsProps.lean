import Verif.Classification.Metrics
import Verif.Classification.CountsProps
import Mathlib.Tactic.FieldSimp
import Mathlib.Tactic.Ring

/-! # C16, C17: classification metrics -/

namespace Verif.Classification

/-! ## C16: fractions -/

theorem precision_mul (c : Counts) : precision c * (c.tp + c.fp) = c.tp := by
  unfold precision
  split
  · next h =>
    have : ((c.tp + c.fp : Nat) : Rat) ≠ 0 := by exact_mod_cast h.ne'
    push_cast at this ⊢
    field_simp
  · next h =>
    have h1 : c.tp = 0 := by omega
    simp [h1]

theorem recall_mul (c : Counts) : recall c * (c.tp + c.fn) = c.tp := by
  unfold recall
  split
  · next h =>
    have : ((c.tp + c.fn : Nat) : Rat) ≠ 0 := by exact_mod_cast h.ne'
    push_cast at this ⊢
    field_simp
  · next h =>
    have h1 : c.tp = 0 := by omega
    simp [h1]

theorem frac_bounds (a b : Nat) (hab : a ≤ b) : 0 ≤ (a : Rat) / b ∧ (a : Rat) / b ≤ 1 := by
  refine ⟨by positivity, ?_⟩
  rcases Nat.eq_zero_or_pos b with h | h
  · subst h; simp
  · rw [div_le_one (by exact_mod_cast h)]
    exact_mod_cast hab

theorem precision_bounds (c : Counts) : 0 ≤ precision c ∧ precision c ≤ 1 := by
  unfold precision
  split
  · exact frac_bounds _ _ (by omega)
  · exact ⟨le_refl _, by norm_num⟩

theorem recall_bounds (c : Counts) : 0 ≤ recall c ∧ recall c ≤ 1 := by
  unfold recall
  split
  · exact frac_bounds _ _ (by omega)
  · exact ⟨le_refl _, by norm_num⟩

/-- **C16 (precision and recall).** For all counts: fractions in `[0, 1]` with the defining product
(so 0, not an undefined value, when the denominator is 0). -/
theorem C16_precision_recall (c : Counts) :
    (0 ≤ precision c ∧ precision c ≤ 1 ∧ precision c * (c.tp + c.fp) = c.tp) ∧
    (0 ≤ recall c ∧ recall c ≤ 1 ∧ recall c * (c.tp + c.fn) = c.tp) :=
  ⟨⟨(precision_bounds c).1, (precision_bounds c).2, precision_mul c⟩,
    (recall_bounds c).1, (recall_bounds c).2, recall_mul c⟩

/-- **C16 (F1 range).** For all fractions, F1 is in `[0, 1]` and at most the larger of the two. -/
theorem C16_f1_range (p r : Rat) (hp : 0 ≤ p ∧ p ≤ 1) (hr : 0 ≤ r ∧ r ≤ 1) :
    0 ≤ f1 p r ∧ f1 p r ≤ 1 ∧ f1 p r ≤ max p r := by
  have key : f1 p r ≤ max p r := by
    unfold f1
    split
    · next h =>
      have hpos : 0 < p + r := by linarith
      rw [div_le_iff₀ hpos]
      rcases le_total p r with h1 | h1
      · rw [max_eq_right h1]; nlinarith [hp.1, hr.1]
      · rw [max_eq_left h1]; nlinarith [hp.1, hr.1]
    · exact le_trans hp.1 (le_max_left _ _)
  refine ⟨?_, le_trans key (max_le hp.2 hr.2), key⟩
  unfold f1
  split
  · next h =>
    have : 0 < p + r := by linarith
    have := hp.1; have := hr.1
    positivity
  · exact le_refl _

/-- The full claim about F1: the harmonic mean, between the smaller and the larger of the two. -/
def F1Harmonic (c : Counts) : Prop :=
  f1 (precision c) (recall c) * (precision c + recall c) = 2 * precision c * recall c ∧
  min (precision c) (recall c) ≤ f1 (precision c) (recall c) ∧
  f1 (precision c) (recall c) ≤ max (precision c) (recall c) ∧
  f1 (precision c) (recall c) * (2 * c.tp + c.fp + c.fn) = 2 * c.tp

/-- **C16 (F1, partial).** It holds when the label was predicted at most 10^9 times. Missing: beyond
that, precision and recall can be positive but so small that the code reports 0. -/
theorem C16_f1_partial (c : Counts) (h : c.tp + c.fp ≤ 1000000000) : F1Harmonic c := by
  obtain ⟨⟨p0, p1, pm⟩, r0, r1, rm⟩ := C16_precision_recall c
  rcases Nat.eq_zero_or_pos c.tp with h0 | h0
  · have hp : precision c = 0 := by unfold precision; split <;> simp [h0]
    have hr : recall c = 0 := by unfold recall; split <;> simp [h0]
    have hf : f1 0 0 = 0 := by unfold f1; norm_num
    unfold F1Harmonic
    rw [hp, hr, hf, h0]
    norm_num
  · have ht : (1 : Rat) ≤ c.tp := by exact_mod_cast h0
    have hfp : (0 : Rat) ≤ c.fp := by positivity
    have hfn : (0 : Rat) ≤ c.fn := by positivity
    have hsum : ((c.tp : Rat) + c.fp) ≤ 1000000000 := by exact_mod_cast h
    have hp : 1 / 1000000000 ≤ precision c := by
      by_contra hcon
      push Not at hcon
      have : precision c * (c.tp + c.fp) < 1 := by nlinarith
      linarith
    have hr : 0 < recall c := by
      rcases lt_or_eq_of_le r0 with h1 | h1
      · exact h1
      · rw [← h1] at rm; linarith
    have hgt : precision c + recall c > 1 / 1000000000 := by linarith
    have hpos : 0 < precision c + recall c := by linarith
    have e : f1 (precision c) (recall c) * (precision c + recall c) = 2 * precision c * recall c := by
      unfold f1
      rw [if_pos hgt]
      field_simp
    refine ⟨e, ?_, (C16_f1_range _ _ ⟨p0, p1⟩ ⟨r0, r1⟩).2.2, ?_⟩
    · unfold f1
      rw [if_pos hgt, le_div_iff₀ hpos]
      rcases le_total (precision c) (recall c) with h1 | h1
      · rw [min_eq_left h1]; nlinarith
      · rw [min_eq_right h1]; nlinarith
    · have hp' : 0 < precision c := by linarith
      have e1 : (c.tp : Rat) + c.fp = c.tp / precision c := by
        rw [eq_div_iff hp'.ne']; linarith
      have e2 : (c.tp : Rat) + c.fn = c.tp / recall c := by
        rw [eq_div_iff hr.ne']; linarith
      have e3 : (2 * c.tp + c.fp + c.fn : Rat) = c.tp / precision c + c.tp / recall c := by
        rw [← e1, ← e2]; ring
      have e4 : f1 (precision c) (recall c) = 2 * precision c * recall c / (precision c + recall c) := by
        unfold f1; rw [if_pos hgt]
      rw [e3, e4]
      field_simp
      ring

/-- **C16 (F1, violated).** One true positive in four billion predictions of a label that occurs four
billion times: precision and recall are positive and equal, F1 is reported as 0. -/
theorem C16_f1_violation : ¬ ∀ c : Counts, F1Harmonic c := by
  intro h
  have := (h ⟨1, 3999999999, 3999999999, 0⟩).2.1
  revert this
  decide +kernel

example : F1Harmonic ⟨3, 1, 2, 7⟩ := C16_f1_partial _ (by norm_num)
example : precision ⟨3, 1, 2, 7⟩ = 3/4 ∧ recall ⟨3, 1, 2, 7⟩ = 3/5 ∧ f1 (3/4) (3/5) = 2/3 := by
  decide +kernel

/-! ## C16: accuracy -/

theorem map_add_sum {α : Type} (f g : α → Nat) (l : List α) :
    (l.map (fun x => f x + g x)).sum = (l.map f).sum + (l.map g).sum := by
  induction l with
  | nil => rfl
  | cons x l ih => simp only [List.map_cons, List.sum_cons, ih]; omega

/-- Summing over the labels leaves one term per datum. -/
theorem sum_specTP {L : List String} (hnd : L.Nodup) (cs : List Classif) (hL : ∀ c ∈ cs, c.gt ∈ L)
    (t : Rat) (h : Bool) :
    (L.map (fun l => specTP cs t h l)).sum = (cs.map (fun c => specTP [c] t h c.gt)).sum := by
  classical
  induction cs with
  | nil => simp [specTP]
  | cons c cs ih =>
    have hc := hL c (by simp)
    have e : ∀ l, specTP (c :: cs) t h l = specTP [c] t h l + specTP cs t h l := by
      intro l; simp [specTP]
    simp only [e, map_add_sum, ih (fun d hd => hL d (by simp [hd])), List.map_cons, List.sum_cons]
    congr 1
    have z : ∀ l, l ≠ c.gt → specTP [c] t h l = 0 := by
      intro l hl
      simp only [specTP, List.map_cons, List.map_nil, List.sum_cons, List.sum_nil, Nat.add_zero,
        List.countP_eq_zero, decide_eq_true_eq]
      intro i _ hh
      exact hl hh.1.symm
    clear hL ih
    induction L with
    | nil => exact absurd hc (by simp)
    | cons x L ihL =>
      obtain ⟨hx, hnd⟩ := List.nodup_cons.1 hnd
      rw [List.map_cons, List.sum_cons]
      rcases List.mem_cons.1 hc with h1 | h1
      · have : (L.map (fun l => specTP [c] t h l)).sum = 0 := by
          rw [List.sum_eq_zero_iff]
          intro y hy
          obtain ⟨l, hl, rfl⟩ := List.mem_map.1 hy
          apply z
          rintro rfl
          exact hx (h1 ▸ hl)
        rw [this, ← h1, Nat.add_zero]
      · rw [ihL hnd h1, z x (fun e => hx (e ▸ h1)), Nat.zero_add]

/-- Tables hold as many datums as there are blocks. -/
theorem numberOfDatums_eq {frags : List (List Row)} {rows : List Row} (hf : FragmentsOf frags rows) :
    numberOfDatums frags = (rows.map Row.datum).dedup.length := by
  have h : ∀ frags : List (List Row),
      frags.Pairwise (fun a b => ∀ x ∈ a, ∀ y ∈ b, x.datum ≠ y.datum) →
      numberOfDatums frags = (frags.flatten.map Row.datum).dedup.length := by
    intro frags hp
    induction frags with
    | nil => rfl
    | cons f fs ih =>
      obtain ⟨h1, h2⟩ := List.pairwise_cons.1 hp
      have e : numberOfDatums (f :: fs) = (f.map Row.datum).dedup.length + numberOfDatums fs := by
        simp [numberOfDatums, unique]
      rw [e, ih h2, List.flatten_cons, List.map_append, List.Disjoint.dedup_append, List.length_append]
      intro d g1 g2
      obtain ⟨x, hx, rfl⟩ := List.mem_map.1 g1
      obtain ⟨y, hy, he⟩ := List.mem_map.1 g2
      obtain ⟨b, hb, hy⟩ := List.mem_flatten.1 hy
      exact h1 b hb x hx y hy he.symm
  rw [h _ hf.aligned]
  exact ((hf.perm.map _).dedup).length_eq

theorem datums_blocks (L : List String) (cs : List Classif) : ∀ n, (∀ c ∈ cs, Covers L c) →
    ((((cs.zipIdx n).map (fun x => rowsOf L x.2 x.1)).flatten).map Row.datum).dedup.length = cs.length := by
  induction cs with
  | nil => intro n _; rfl
  | cons c cs ih =>
    intro n hc
    rw [List.zipIdx_cons, List.map_cons, List.flatten_cons, List.map_append,
      List.Disjoint.dedup_append, List.length_append, ih (n + 1) (fun d hd => hc d (by simp [hd]))]
    · have h1 : (rowsOf L n c).map Row.datum = List.replicate (c.preds.zip c.scores).length (n : Int) := by
        rw [List.eq_replicate_iff]
        constructor
        · simp [rowsOf]
        · intro b hb
          simp only [rowsOf, List.map_map, List.mem_map] at hb
          obtain ⟨x, _, rfl⟩ := hb
          rfl
      have hcc := hc c (by simp)
      rw [h1, List.replicate_dedup]
      · simp; omega
      · rw [List.length_zip, ← hcc.valid, Nat.min_self]
        intro h0
        exact hcc.ne (List.length_eq_zero_iff.1 h0)
    · intro d h1 h2
      obtain ⟨x, hx, rfl⟩ := List.mem_map.1 h1
      obtain ⟨y, hy, he⟩ := List.mem_map.1 h2
      simp only [rowsOf, List.mem_map] at hx
      obtain ⟨_, _, rfl⟩ := hx
      simp only [List.mem_flatten, List.mem_map] at hy
      obtain ⟨_, ⟨⟨e, k⟩, hk, rfl⟩, hy⟩ := hy
      simp only [rowsOf, List.mem_map] at hy
      obtain ⟨_, _, rfl⟩ := hy
      have := (List.mem_zipIdx hk).1
      simp only [Int.natCast_inj] at he
      omega

/-- The evaluator's number of datums is the number of classifications added. -/
theorem numberOfDatums_reach (calls : List (List Classif)) (hv : ∀ c ∈ calls.flatten, c.valid = true)
    {frags : List (List Row)} (hf : FragmentsOf frags (Loader.init.addAll calls).rows.flatten) :
    numberOfDatums frags = (history calls).length := by
  rw [numberOfDatums_eq hf, rows_reach calls]
  exact datums_blocks _ _ 0 (covers_reach calls hv)

open Classical in
/-- The claim about accuracy for one `hardmax` setting and histories satisfying `P`: it is the
fraction of datums for which the ground-truth label was predicted, in `[0, 1]`. -/
def AccuracyIsFraction (hardmax : Bool) (P : List Classif → Prop) : Prop :=
  ∀ calls : List (List Classif), (∀ c ∈ calls.flatten, c.valid = true) →
    (Loader.init.addAll calls).labels.length ≤ 100000 → P (history calls) → history calls ≠ [] →
    ∀ frags, FragmentsOf frags (Loader.init.addAll calls).rows.flatten →
    ∀ t : Rat, ∃ m, computePrecisionRecall frags [t] hardmax (Loader.init.addAll calls).labels.length none
        = some [m] ∧ 0 ≤ m.accuracy ∧ m.accuracy ≤ 1 ∧
      m.accuracy * (history calls).length
        = (history calls).countP (fun c => decide (∃ i, c.preds[i]? = some c.gt ∧ Made t hardmax c i))

open Classical in
theorem accuracy_aux (hm : Bool) (P : List Classif → Prop)
    (hone : ∀ cs, P cs → ∀ (t : Rat), ∀ c ∈ cs, c.preds ≠ [] → c.preds.length = c.scores.length →
      specTP [c] t hm c.gt = if (∃ i, c.preds[i]? = some c.gt ∧ Made t hm c i) then 1 else 0) :
    AccuracyIsFraction hm P := by
  intro calls hv hL hP hne frags hf t
  refine ⟨_, by rw [computePrecisionRecall, if_neg (by simp)]; dsimp only; rw [C13_counts calls hv hL frags hf [t] hm]; rfl, ?_⟩
  have hcov := covers_reach calls hv
  have hlen : (history calls).length ≠ 0 := fun h => hne (List.length_eq_zero_iff.1 h)
  have hcorr : ∀ cs : List Classif, (∀ c ∈ cs, c ∈ history calls) →
      (cs.map (fun c => specTP [c] t hm c.gt)).sum
      = (cs.filter (fun c => decide (∃ i, c.preds[i]? = some c.gt ∧ Made t hm c i))).length := by
    intro cs
    induction cs with
    | nil => intro _; rfl
    | cons c cs ih =>
      intro hmem
      rw [List.map_cons, List.sum_cons, ih (fun d hd => hmem d (by simp [hd]))]
      have hc := hmem c (by simp)
      rw [hone (history calls) hP t c hc (hcov c hc).ne (hcov c hc).valid]
      by_cases hx : ∃ i, c.preds[i]? = some c.gt ∧ Made t hm c i
      · rw [if_pos hx, List.filter_cons_of_pos (by simpa using hx), List.length_cons]; omega
      · rw [if_neg hx, List.filter_cons_of_neg (by simpa using hx)]; omega
  have hsum := sum_specTP (linv_reach calls).nodup (history calls) (fun c hc => (hcov c hc).gt) t hm
  rw [hcorr _ (fun c hc => hc)] at hsum
  have hacc : accuracy ((Loader.init.addAll calls).labels.map (fun l =>
          (⟨specTP (history calls) t hm l, specFP (history calls) t hm l,
            specFN (history calls) t hm l, specTN (history calls) t hm l⟩ : Counts)))
          (numberOfDatums frags)
      = (((history calls).filter (fun c => decide (∃ i, c.preds[i]? = some c.gt ∧ Made t hm c i))).length : Rat)
        / (history calls).length := by
    unfold accuracy
    rw [numberOfDatums_reach calls hv hf, if_neg hlen, List.map_map]
    congr 1
    rw [← hsum]
    congr 1
  have hle : ((history calls).filter (fun c => decide (∃ i, c.preds[i]? = some c.gt ∧ Made t hm c i))).length
      ≤ (history calls).length := List.length_filter_le _ _
  simp only [toMetrics]
  rw [hacc]
  refine ⟨(frac_bounds _ _ hle).1, (frac_bounds _ _ hle).2, ?_⟩
  have : ((history calls).length : Rat) ≠ 0 := by exact_mod_cast hlen
  rw [List.countP_eq_length_filter]
  field_simp

/-- **C16 (accuracy, winner-take-all).** For every history, threshold and fragmentation: accuracy is
the number of datums whose winner reaches the threshold and is the ground truth, over the number of
datums. -/
theorem C16_accuracy_hardmax : AccuracyIsFraction true (fun _ => True) := by
  classical
  apply accuracy_aux
  intro cs _ t c _ hne hval
  have hs : c.scores ≠ [] := by
    intro h0; rw [h0] at hval; exact hne (List.length_eq_zero_iff.1 hval)
  have hw : ∀ i, Made t true c i → i = argmax c.scores := by
    rintro i ⟨_, h⟩
    exact ((isWinner_argmax hs i).1 (h rfl)).symm
  have hwlt : argmax c.scores < c.preds.length := by
    obtain ⟨v, h1, _⟩ := argmax_spec c.scores hs
    rw [hval]
    by_contra hc
    rw [List.getElem?_eq_none (by omega)] at h1
    exact absurd h1 (by simp)
  simp only [specTP, List.map_cons, List.map_nil, List.sum_cons, List.sum_nil, Nat.add_zero]
  rw [countP_range_unique hwlt (by intro i hi; rw [decide_eq_true_eq] at hi; exact hw i hi.2.2)]
  simp only [decide_eq_true_eq, true_and]
  by_cases hx : ∃ i, c.preds[i]? = some c.gt ∧ Made t true c i
  · rw [if_pos hx, if_pos]
    obtain ⟨i, h1, h2⟩ := hx
    rw [hw i h2] at h1 h2
    exact ⟨h1, h2⟩
  · rw [if_neg hx, if_neg]
    intro h
    exact hx ⟨_, h⟩

/-- **C16 (accuracy, all predictions, partial).** With `hardmax=False` it holds when no datum lists a
label twice. -/
theorem C16_accuracy_all_partial : AccuracyIsFraction false (fun cs => ∀ c ∈ cs, c.preds.Nodup) := by
  classical
  apply accuracy_aux
  intro cs hP t c hc hne hval
  have hnd := hP c hc
  simp only [specTP, List.map_cons, List.map_nil, List.sum_cons, List.sum_nil, Nat.add_zero]
  by_cases hx : ∃ i, c.preds[i]? = some c.gt ∧ Made t false c i
  · obtain ⟨w, h1, h2⟩ := hx
    have hwlt : w < c.preds.length := by
      by_contra hcon
      rw [List.getElem?_eq_none (by omega)] at h1
      exact absurd h1 (by simp)
    rw [if_pos ⟨w, h1, h2⟩, countP_range_unique hwlt, if_pos (by simpa using ⟨h1, h2⟩)]
    intro i hi
    rw [decide_eq_true_eq] at hi
    have hilt : i < c.preds.length := by
      by_contra hcon
      rw [List.getElem?_eq_none (by omega)] at hi
      exact absurd hi.2.1 (by simp)
    have e : c.preds[i] = c.preds[w] := Option.some.inj (by
      rw [← List.getElem?_eq_getElem hilt, ← List.getElem?_eq_getElem hwlt, hi.2.1, h1])
    exact hnd.getElem_inj_iff.1 e
  · rw [if_neg hx, List.countP_eq_zero]
    intro i _ hi
    rw [decide_eq_true_eq] at hi
    exact hx ⟨i, hi.2⟩

/-- **C16 (accuracy, violated).** With `hardmax=False` a datum that lists its ground-truth label twice
gives an accuracy of 2. -/
theorem C16_accuracy_violation : ¬ AccuracyIsFraction false (fun _ => True) := by
  intro h
  obtain ⟨m, h1, _, h2, _⟩ := h [[⟨"d", "a", ["a", "a"], [9/10, 8/10], ""⟩]] (by decide)
    (by decide +kernel) trivial (by decide)
    [(Loader.init.addAll [[(⟨"d", "a", ["a", "a"], [9/10, 8/10], ""⟩ : Classif)]]).rows.flatten]
    ⟨by simp, by simp⟩ (1/2)
  have h3 : computePrecisionRecall
      [(Loader.init.addAll [[(⟨"d", "a", ["a", "a"], [9/10, 8/10], ""⟩ : Classif)]]).rows.flatten]
      [1/2] false (Loader.init.addAll [[(⟨"d", "a", ["a", "a"], [9/10, 8/10], ""⟩ : Classif)]]).labels.length
      none = some [⟨2, [⟨⟨2, 0, 0, 0⟩, 1, 1, 1⟩]⟩] := by decide +kernel
  rw [h3] at h1
  have : m = ⟨2, [⟨⟨2, 0, 0, 0⟩, 1, 1, 1⟩]⟩ := by simpa using h1.symm
  rw [this] at h2
  revert h2
  decide +kernel

example : history sample ≠ [] ∧ (∀ c ∈ history sample, c.preds.Nodup) ∧
    computePrecisionRecall (Loader.init.addAll sample).rows [0] true 3 none
      = some [⟨1/3, [⟨⟨1, 1, 0, 0⟩, 1/2, 1, 2/3⟩, ⟨⟨0, 0, 2, 1⟩, 0, 0, 0⟩, ⟨⟨0, 1, 0, 0⟩, 0, 0, 0⟩]⟩] := by
  decide +kernel

/-! ## C17 -/

/-- **C17 (exact relation).** Evaluating with a filter gives the counts, precision, recall and F1 of
the filtered data; accuracy is that of the filtered data scaled by (datums kept / all datums). -/
theorem C17_scaled_accuracy (frags : List (List Row)) (ts : List Rat) (hm : Bool) (n : Nat)
    (p : Row → Bool) (rep true_ : List ThresholdMetrics)
    (h1 : computePrecisionRecall frags ts hm n (some p) = some rep)
    (h2 : computePrecisionRecall (frags.map (fun f => f.filter p)) ts hm n none = some true_)
    (hk : numberOfDatums (frags.map (fun f => f.filter p)) ≠ 0) (hn : numberOfDatums frags ≠ 0) :
    rep.map ThresholdMetrics.labels = true_.map ThresholdMetrics.labels ∧
    rep.map (fun m => m.accuracy * (numberOfDatums frags : Rat))
      = true_.map (fun m => m.accuracy * (numberOfDatums (frags.map (fun f => f.filter p)) : Rat)) := by
  unfold computePrecisionRecall at h1 h2
  split at h1
  · exact absurd h1 (by simp)
  next hts =>
  rw [if_neg hts] at h2
  dsimp only at h1 h2
  cases hc : evalCounts (frags.map (fun f => f.filter p)) ts hm n with
  | none => rw [hc] at h1; exact absurd h1 (by simp)
  | some cs =>
    rw [hc] at h1 h2
    simp only [Option.map_some, Option.some.injEq] at h1 h2
    subst h1 h2
    constructor
    · simp [List.map_map, Function.comp_def, toMetrics]
    · rw [List.map_map, List.map_map]
      apply List.map_congr_left
      intro row _
      have e1 : (numberOfDatums frags : Rat) ≠ 0 := by exact_mod_cast hn
      have e2 : (numberOfDatums (frags.map (fun f => f.filter p)) : Rat) ≠ 0 := by exact_mod_cast hk
      simp only [Function.comp_apply, toMetrics, accuracy, if_neg hn, if_neg hk]
      field_simp

/-- The full statement of C17 for tables and filters satisfying `P`. -/
def FilteredAccuracy (P : List (List Row) → (Row → Bool) → Prop) : Prop :=
  ∀ (frags : List (List Row)) (ts : List Rat) (hm : Bool) (n : Nat) (p : Row → Bool), P frags p →
    computePrecisionRecall frags ts hm n (some p)
      = computePrecisionRecall (frags.map (fun f => f.filter p)) ts hm n none

/-- **C17 (partial).** It holds when the filter drops no datum entirely. -/
theorem C17_partial : FilteredAccuracy (fun frags p =>
    ∀ f ∈ frags, ∀ r ∈ f, ∃ r' ∈ f, r'.datum = r.datum ∧ p r' = true) := by
  intro frags ts hm n p hP
  unfold computePrecisionRecall
  have : numberOfDatums frags = numberOfDatums (frags.map (fun f => f.filter p)) := by
    unfold numberOfDatums unique
    rw [List.map_map]
    congr 1
    apply List.map_congr_left
    intro f hf
    simp only [Function.comp_apply]
    apply List.Perm.length_eq
    rw [List.perm_ext_iff_of_nodup (List.nodup_dedup _) (List.nodup_dedup _)]
    intro d
    simp only [List.mem_dedup, List.mem_map, List.mem_filter]
    constructor
    · rintro ⟨r, hr, rfl⟩
      obtain ⟨r', h1, h2, h3⟩ := hP f hf r hr
      exact ⟨r', ⟨h1, h3⟩, h2⟩
    · rintro ⟨r, ⟨hr, _⟩, rfl⟩
      exact ⟨r, hr, rfl⟩
  dsimp only
  rw [this]

/-- Rows of two datums, one right, one wrong. -/
def twoDatums : List (List Row) :=
  (Loader.init.addAll [[⟨"d0", "a", ["a"], [1], ""⟩, ⟨"d1", "b", ["a"], [1], ""⟩]]).rows

/-- **C17, violated.** Keeping only the datum that is right gives accuracy 1/2 instead of 1. -/
theorem C17_violation : ¬ FilteredAccuracy (fun _ _ => True) := by
  intro h
  have := h twoDatums [0] true 2 (fun r => r.datum == 0) trivial
  revert this
  decide +kernel

example : ∀ f ∈ (Loader.init.addAll sample).rows, ∀ r ∈ f, ∃ r' ∈ f, r'.datum = r.datum ∧ r'.winner = true := by
  decide +kernel
example : computePrecisionRecall twoDatums [0] true 2 (some fun r => r.datum == 0)
      = some [⟨1/2, [⟨⟨1, 0, 0, 0⟩, 1, 1, 1⟩, ⟨⟨0, 0, 0, 0⟩, 0, 0, 0⟩]⟩] ∧
    computePrecisionRecall (twoDatums.map (fun f => f.filter fun r => r.datum == 0)) [0] true 2 none
      = some [⟨1, [⟨⟨1, 0, 0, 0⟩, 1, 1, 1⟩, ⟨⟨0, 0, 0, 0⟩, 0, 0, 0⟩]⟩] := by
  decide +kernel

end Verif.Classification
