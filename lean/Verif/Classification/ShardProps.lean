import Verif.Classification.OrderProps

/-! # C84: a classification dataset in shards -/

namespace Verif.Classification

/-- An evaluator that was built from the given calls, with its datum-aligned tables. -/
structure Built where
  calls : List (List Classif)
  valid : ∀ c ∈ calls.flatten, c.valid = true
  frags : List (List Row)
  stored : FragmentsOf frags (Loader.init.addAll calls).rows.flatten

/-- The labels by id. -/
def Built.labels (e : Built) : List String := (Loader.init.addAll e.calls).labels

/-- The metrics of `compute_precision_recall` at one threshold. -/
def Built.metrics (e : Built) (t : Rat) (hm : Bool) : Option ThresholdMetrics :=
  (computePrecisionRecall e.frags [t] hm e.labels.length none).bind List.head?

/-- The metrics of label `v`. -/
def Built.metricsOf (e : Built) (t : Rat) (hm : Bool) (v : String) : Option LabelMetrics :=
  (e.metrics t hm).bind (fun m => m.labels[e.labels.idxOf v]?)

/-- The counts of label `v`; zero for a label that the evaluator does not have. -/
def Built.counts (e : Built) (t : Rat) (hm : Bool) (v : String) : Counts :=
  (e.metricsOf t hm v).elim Counts.zero LabelMetrics.counts

/-- The confusion matrix at one threshold. -/
def Built.matrix (e : Built) (t : Rat) (hm : Bool) : Option CM :=
  (evalCM e.frags [t] hm e.labels.length).bind List.head?

/-- The cell of ground truth `g` and prediction `p`; zero for labels that the evaluator does not have. -/
def Built.cell (e : Built) (t : Rat) (hm : Bool) (g p : String) : Nat :=
  ((e.matrix t hm).bind (fun M => (M.cells[e.labels.idxOf g]?).bind (fun r => r[e.labels.idxOf p]?))).getD 0

/-- The unmatched ground truths of label `v`. -/
def Built.missed (e : Built) (t : Rat) (hm : Bool) (v : String) : Nat :=
  ((e.matrix t hm).bind (fun M => M.unmatched[e.labels.idxOf v]?)).getD 0

theorem getElem?_idxOf_map {β : Type} (L : List String) (f : String → β) (v : String) :
    (L.map f)[L.idxOf v]? = if v ∈ L then some (f v) else none := by
  rw [List.getElem?_map]
  by_cases h : v ∈ L
  · rw [if_pos h, List.getElem?_eq_getElem (List.idxOf_lt_length_iff.2 h), List.getElem_idxOf]; rfl
  · rw [if_neg h, List.getElem?_eq_none (by rw [List.idxOf_eq_length_iff.2 h])]; rfl

theorem Built.metrics_eq (e : Built) (hL : e.labels.length ≤ 100000) (t : Rat) (hm : Bool) :
    e.metrics t hm = some (toMetrics (history e.calls).length (e.labels.map (countsOf (history e.calls) hm t))) := by
  unfold Built.metrics computePrecisionRecall
  rw [if_neg (by simp)]
  dsimp only
  unfold Built.labels at hL ⊢
  rw [C13_counts e.calls e.valid hL e.frags e.stored [t] hm, numberOfDatums_reach e.calls e.valid e.stored]
  rfl

theorem countsOf_zero {cs : List Classif} {L : List String} (hc : ∀ c ∈ cs, Covers L c) (hm : Bool) (t : Rat) {v : String} (hv : v ∉ L) :
    countsOf cs hm t v = Counts.zero := by
  classical
  have hp : ∀ c ∈ cs, ∀ i, c.preds[i]? ≠ some v := fun c h i e => hv ((hc c h).preds v (List.mem_of_getElem? e))
  have hg : ∀ c ∈ cs, c.gt ≠ v := fun c h e => hv (e ▸ (hc c h).gt)
  have hz : ∀ f : Classif → Nat, (∀ c ∈ cs, f c = 0) → (cs.map f).sum = 0 := by
    intro f hf
    rw [List.map_congr_left (g := fun _ => 0) hf]
    simp
  unfold countsOf specTP specFP specFN specTN Counts.zero
  rw [hz _ (fun c h => by simp [hg c h]), hz _ (fun c h => by simp [hp c h]), List.countP_eq_zero.2 (fun c h => by simp [hg c h]),
    List.countP_eq_zero.2 (fun c h => by simp [hp c h])]

theorem Built.metricsOf_eq (e : Built) (hL : e.labels.length ≤ 100000) (t : Rat) (hm : Bool) (v : String) :
    e.metricsOf t hm v = if v ∈ e.labels then
      some (let c := countsOf (history e.calls) hm t v; ⟨c, precision c, recall c, f1 (precision c) (recall c)⟩) else none := by
  unfold Built.metricsOf
  rw [e.metrics_eq hL, Option.bind_some]
  unfold toMetrics
  rw [List.map_map, getElem?_idxOf_map]
  rfl

theorem Built.counts_eq (e : Built) (hL : e.labels.length ≤ 100000) (t : Rat) (hm : Bool) (v : String) :
    e.counts t hm v = countsOf (history e.calls) hm t v := by
  unfold Built.counts
  rw [e.metricsOf_eq hL]
  by_cases hv : v ∈ e.labels
  · rw [if_pos hv]; rfl
  · rw [if_neg hv, countsOf_zero (covers_reach e.calls e.valid) hm t hv]; rfl

theorem Built.cell_eq (e : Built) (t : Rat) (hm : Bool) (g p : String) : e.cell t hm g p = specCell (history e.calls) t hm g p := by
  classical
  have hcov := covers_reach e.calls e.valid
  unfold Built.cell Built.matrix Built.labels
  rw [C19_matrix e.calls e.valid e.frags e.stored t hm]
  simp only [Option.bind_some, List.head?_cons, getElem?_idxOf_map]
  by_cases hg : g ∈ (Loader.init.addAll e.calls).labels
  · by_cases hp : p ∈ (Loader.init.addAll e.calls).labels
    · simp [hg, hp]
    · rw [if_pos hg, Option.bind_some, getElem?_idxOf_map, if_neg hp, Option.getD_none]
      refine (List.countP_eq_zero.2 ?_).symm
      intro c hc
      have : ∀ i, c.preds[i]? ≠ some p := fun i h => hp ((hcov c hc).preds p (List.mem_of_getElem? h))
      simp [this]
  · simp only [hg, if_false, Option.bind_none, Option.getD_none]
    refine (List.countP_eq_zero.2 ?_).symm
    intro c hc
    have : c.gt ≠ g := fun h => hg (h ▸ (hcov c hc).gt)
    simp [this]

theorem Built.missed_eq (e : Built) (t : Rat) (hm : Bool) (v : String) : e.missed t hm v = specMissed (history e.calls) t hm v := by
  classical
  have hcov := covers_reach e.calls e.valid
  unfold Built.missed Built.matrix Built.labels
  rw [C19_matrix e.calls e.valid e.frags e.stored t hm]
  simp only [Option.bind_some, List.head?_cons, getElem?_idxOf_map]
  by_cases hg : v ∈ (Loader.init.addAll e.calls).labels
  · simp [hg]
  · simp only [hg, if_false, Option.getD_none]
    refine (List.countP_eq_zero.2 ?_).symm
    intro c hc
    have : c.gt ≠ v := fun h => hg (h ▸ (hcov c hc).gt)
    simp [this]

theorem labels_subset (e whole : Built) (h : ∀ c ∈ history e.calls, c ∈ history whole.calls) : ∀ v ∈ e.labels, v ∈ whole.labels := by
  intro v hv
  obtain ⟨c, hc, h'⟩ := (linv_reach e.calls).onlyUsed v hv
  obtain ⟨h1, h2⟩ := covers_reach whole.calls whole.valid c (h c hc)
  rcases h' with rfl | h'
  · exact h1
  · exact h2 v h'

theorem labels_bound (e whole : Built) (h : ∀ c ∈ history e.calls, c ∈ history whole.calls) (hL : whole.labels.length ≤ 100000) :
    e.labels.length ≤ 100000 :=
  ((List.subperm_of_subset (linv_reach e.calls).nodup (labels_subset e whole h)).length_le).trans hL

/-- The sum of the counts of the shards. -/
def addUp (l : List Counts) : Counts := l.foldr Counts.add Counts.zero

theorem sum_flatten_map {α : Type} (f : α → Nat) (ls : List (List α)) : (ls.flatten.map f).sum = (ls.map (fun l => (l.map f).sum)).sum := by
  induction ls with
  | nil => rfl
  | cons l ls ih => rw [List.flatten_cons, List.map_append, List.sum_append, ih, List.map_cons, List.sum_cons]

theorem countP_flatten_map {α : Type} (p : α → Bool) (ls : List (List α)) : ls.flatten.countP p = (ls.map (fun l => l.countP p)).sum := by
  induction ls with
  | nil => rfl
  | cons l ls ih => simp [ih]

theorem countsOf_append (a b : List Classif) (hm : Bool) (t : Rat) (v : String) :
    countsOf (a ++ b) hm t v = (countsOf a hm t v).add (countsOf b hm t v) := by
  unfold countsOf specTP specFP specFN specTN Counts.add
  simp only [List.map_append, List.sum_append, List.countP_append]

theorem countsOf_flatten (ls : List (List Classif)) (hm : Bool) (t : Rat) (v : String) :
    countsOf ls.flatten hm t v = addUp (ls.map (fun l => countsOf l hm t v)) := by
  induction ls with
  | nil => rfl
  | cons l ls ih => rw [List.flatten_cons, countsOf_append, ih]; rfl

/-- What the shards have in common with the whole. -/
def Split (whole : Built) (shards : List Built) : Prop :=
  (history whole.calls).Perm (shards.map (fun e => history e.calls)).flatten

theorem Split.sub {whole : Built} {shards : List Built} (h : Split whole shards) {e : Built} (he : e ∈ shards) :
    ∀ c ∈ history e.calls, c ∈ history whole.calls := by
  intro c hc
  exact List.Perm.mem_iff h |>.2 (List.mem_flatten.2 ⟨_, List.mem_map.2 ⟨e, he, rfl⟩, hc⟩)

theorem accuracy_datums {cs : List Classif} {L : List String} (hnd : L.Nodup) (hc : ∀ c ∈ cs, Covers L c) (hm : Bool) (t : Rat) :
    accuracy (L.map (countsOf cs hm t)) cs.length * cs.length = ((cs.map (fun c => specTP [c] t hm c.gt)).sum : Nat) := by
  rw [accuracy_eq, List.map_map, ← sum_specTP hnd cs (fun c h => (hc c h).gt) t hm]
  have e : L.map (Counts.tp ∘ countsOf cs hm t) = L.map (fun l => specTP cs t hm l) := rfl
  rw [e]
  by_cases h0 : cs = []
  · subst h0
    simp [specTP]
  · have : (cs.length : Rat) ≠ 0 := by exact_mod_cast (fun h => h0 (List.length_eq_zero_iff.1 h))
    rw [div_mul_cancel₀ _ this]

theorem Built.accuracy_eq (e : Built) (hL : e.labels.length ≤ 100000) (t : Rat) (hm : Bool) {m : ThresholdMetrics} (h : e.metrics t hm = some m) :
    m.accuracy * (numberOfDatums e.frags : Rat) = (((history e.calls).map (fun c => specTP [c] t hm c.gt)).sum : Nat) := by
  rw [e.metrics_eq hL, Option.some.injEq] at h
  subst h
  rw [numberOfDatums_reach e.calls e.valid e.stored]
  exact accuracy_datums (linv_reach e.calls).nodup (covers_reach e.calls e.valid) hm t

/-- **C84 (classification, counts).** The accepted classifications of a dataset are evaluated as a whole and in shards, each with its own
evaluator, label ids, order of adding and tables: for every label, threshold and `hardmax` setting the true and false positives and
negatives of the shards add up to those of the whole; the numbers of datums too. -/
theorem C84_classification_counts (whole : Built) (shards : List Built) (h : Split whole shards) (hL : whole.labels.length ≤ 100000)
    (t : Rat) (hm : Bool) (v : String) :
    whole.counts t hm v = addUp (shards.map (fun e => e.counts t hm v)) ∧
    numberOfDatums whole.frags = (shards.map (fun e => numberOfDatums e.frags)).sum := by
  constructor
  · rw [whole.counts_eq hL, countsOf_perm h, countsOf_flatten, List.map_map]
    congr 1
    exact List.map_congr_left (fun e he => (e.counts_eq (labels_bound e whole (h.sub he) hL) t hm v).symm)
  · rw [numberOfDatums_reach whole.calls whole.valid whole.stored, List.Perm.length_eq h, List.length_flatten, List.map_map]
    congr 1
    exact List.map_congr_left (fun e _ => (numberOfDatums_reach e.calls e.valid e.stored).symm)

/-- **C84 (classification, accuracy).** Every evaluator reports an accuracy, and the accuracy of the whole is the mean of the accuracies of
the shards, weighted by their numbers of datums. -/
theorem C84_classification_accuracy (whole : Built) (shards : List Built) (h : Split whole shards) (hL : whole.labels.length ≤ 100000)
    (t : Rat) (hm : Bool) :
    ∃ (m : ThresholdMetrics) (ms : List ThresholdMetrics), whole.metrics t hm = some m ∧ shards.map (fun e => e.metrics t hm) = ms.map some ∧
      m.accuracy * (numberOfDatums whole.frags : Rat)
        = (List.zipWith (fun e x => ThresholdMetrics.accuracy x * (numberOfDatums e.frags : Rat)) shards ms).sum := by
  have hb : ∀ e ∈ shards, e.labels.length ≤ 100000 := fun e he => labels_bound e whole (h.sub he) hL
  refine ⟨_, shards.map (fun e => toMetrics (history e.calls).length (e.labels.map (countsOf (history e.calls) hm t))), whole.metrics_eq hL t hm, ?_, ?_⟩
  · rw [List.map_map]
    exact List.map_congr_left (fun e he => e.metrics_eq (hb e he) t hm)
  · rw [whole.accuracy_eq hL t hm (whole.metrics_eq hL t hm), (List.Perm.map _ h).sum_eq, sum_flatten_map, List.map_map, List.zipWith_map_right]
    clear h
    induction shards with
    | nil => simp
    | cons e l ih =>
      rw [List.map_cons, List.sum_cons, List.zipWith_cons_cons, List.sum_cons, Nat.cast_add,
        e.accuracy_eq (hb e (by simp)) t hm (e.metrics_eq (hb e (by simp)) t hm), ih (fun x hx => hb x (by simp [hx]))]
      rfl

/-- **C84 (classification, confusion matrix).** For every threshold (computed on its own, see C18) the cells and the unmatched ground truths
add up, for any number of labels. -/
theorem C84_classification_confusion (whole : Built) (shards : List Built) (h : Split whole shards) (t : Rat) (hm : Bool) :
    (∀ g p, whole.cell t hm g p = (shards.map (fun e => e.cell t hm g p)).sum) ∧
    ∀ v, whole.missed t hm v = (shards.map (fun e => e.missed t hm v)).sum := by
  classical
  constructor
  · intro g p
    simp only [Built.cell_eq]
    unfold specCell
    rw [List.Perm.countP_eq _ h, countP_flatten_map, List.map_map]
    rfl
  · intro v
    simp only [Built.missed_eq]
    unfold specMissed
    rw [List.Perm.countP_eq _ h, countP_flatten_map, List.map_map]
    rfl

/-- `n` times the counts. -/
def Counts.times (n : Nat) (c : Counts) : Counts := ⟨n * c.tp, n * c.fp, n * c.fn, n * c.tn⟩

theorem addUp_replicate (n : Nat) (c : Counts) : addUp (List.replicate n c) = c.times n := by
  induction n with
  | zero => simp [addUp, Counts.times, Counts.zero]
  | succ n ih =>
    rw [List.replicate_succ]
    change c.add (addUp (List.replicate n c)) = _
    rw [ih]
    unfold Counts.add Counts.times
    simp only [Counts.mk.injEq]
    refine ⟨?_, ?_, ?_, ?_⟩ <;> ring

theorem precision_times {n : Nat} (hn : 0 < n) (c : Counts) : precision (c.times n) = precision c := by
  have hq : (n : Rat) ≠ 0 := by exact_mod_cast hn.ne'
  unfold precision Counts.times
  dsimp only
  rw [← Nat.mul_add]
  by_cases h : c.tp + c.fp > 0
  · rw [if_pos h, if_pos (Nat.mul_pos hn h), Nat.cast_mul, Nat.cast_mul, mul_div_mul_left _ _ hq]
  · have h0 : c.tp + c.fp = 0 := by omega
    rw [h0, Nat.mul_zero, if_neg (by omega), if_neg (by omega)]

theorem recall_times {n : Nat} (hn : 0 < n) (c : Counts) : recall (c.times n) = recall c := by
  have hq : (n : Rat) ≠ 0 := by exact_mod_cast hn.ne'
  unfold recall Counts.times
  dsimp only
  rw [← Nat.mul_add]
  by_cases h : c.tp + c.fn > 0
  · rw [if_pos h, if_pos (Nat.mul_pos hn h), Nat.cast_mul, Nat.cast_mul, mul_div_mul_left _ _ hq]
  · have h0 : c.tp + c.fn = 0 := by omega
    rw [h0, Nat.mul_zero, if_neg (by omega), if_neg (by omega)]

theorem sum_map_times {α : Type} (n : Nat) (f : α → Nat) (l : List α) : (l.map (fun x => n * f x)).sum = n * (l.map f).sum := by
  induction l with
  | nil => simp
  | cons x l ih => rw [List.map_cons, List.sum_cons, ih, List.map_cons, List.sum_cons, Nat.mul_add]

/-- **C84 (classification, copies).** A dataset in which every classification is repeated `n` times has the labels, and for every label the
precision, recall and F1 of the dataset, and its accuracy. -/
theorem C84_classification_copies (whole e : Built) {n : Nat} (hn : 0 < n)
    (hp : (history whole.calls).Perm (List.replicate n (history e.calls)).flatten) (hL : e.labels.length ≤ 100000) (t : Rat) (hm : Bool) :
    whole.labels.Perm e.labels ∧
    (∀ v ∈ e.labels, ∃ x y, whole.metricsOf t hm v = some x ∧ e.metricsOf t hm v = some y ∧
      x.counts = y.counts.times n ∧ x.precision = y.precision ∧ x.recall = y.recall ∧ x.f1 = y.f1) ∧
    ∃ m m', whole.metrics t hm = some m ∧ e.metrics t hm = some m' ∧ m.accuracy = m'.accuracy := by
  have hsplit : Split whole (List.replicate n e) := by
    unfold Split
    rw [List.map_replicate]
    exact hp
  have hback : ∀ c ∈ history whole.calls, c ∈ history e.calls := by
    intro c hc
    obtain ⟨l, hl, hcl⟩ := List.mem_flatten.1 (hp.mem_iff.1 hc)
    rw [(List.mem_replicate.1 hl).2] at hcl
    exact hcl
  have hmem : e ∈ List.replicate n e := List.mem_replicate.2 ⟨hn.ne', rfl⟩
  have hperm : whole.labels.Perm e.labels :=
    (List.perm_ext_iff_of_nodup (linv_reach whole.calls).nodup (linv_reach e.calls).nodup).2
      (fun v => ⟨labels_subset whole e hback v, labels_subset e whole (hsplit.sub hmem) v⟩)
  have hL' : whole.labels.length ≤ 100000 := by rw [hperm.length_eq]; exact hL
  have hcounts : ∀ v, countsOf (history whole.calls) hm t v = (countsOf (history e.calls) hm t v).times n := by
    intro v
    rw [countsOf_perm hp, countsOf_flatten, List.map_replicate, addUp_replicate]
  refine ⟨hperm, ?_, ?_⟩
  · intro v hv
    refine ⟨_, _, (whole.metricsOf_eq hL' t hm v).trans (if_pos (hperm.mem_iff.2 hv)), (e.metricsOf_eq hL t hm v).trans (if_pos hv), hcounts v, ?_, ?_, ?_⟩
    · dsimp only; rw [hcounts, precision_times hn]
    · dsimp only; rw [hcounts, recall_times hn]
    · dsimp only; rw [hcounts, precision_times hn, recall_times hn]
  · refine ⟨_, _, whole.metrics_eq hL' t hm, e.metrics_eq hL t hm, ?_⟩
    have hq : (n : Rat) ≠ 0 := by exact_mod_cast hn.ne'
    unfold toMetrics
    dsimp only
    rw [Verif.Classification.accuracy_eq, Verif.Classification.accuracy_eq, hp.length_eq, List.length_flatten, List.map_replicate, List.sum_replicate_nat,
      ((hperm.map _).map _).sum_eq, List.map_map, List.map_map]
    have : e.labels.map (Counts.tp ∘ countsOf (history whole.calls) hm t) = e.labels.map (fun v => n * (countsOf (history e.calls) hm t v).tp) :=
      List.map_congr_left (fun v _ => by simp only [Function.comp_apply, hcounts, Counts.times])
    rw [this, sum_map_times, Nat.cast_mul, Nat.cast_mul, mul_div_mul_left _ _ hq]
    rfl

/-- Every history has an evaluator with one table. -/
theorem built_exists (calls : List (List Classif)) (hv : ∀ c ∈ calls.flatten, c.valid = true) : ∃ e : Built, e.calls = calls :=
  ⟨⟨calls, hv, [(Loader.init.addAll calls).rows.flatten], ⟨by rw [List.flatten_singleton], List.pairwise_singleton _ _⟩⟩, rfl⟩

/-- The sample in two shards: the calls before the last and the last call. -/
example : ∃ whole a b : Built, whole.calls = sample ∧ Split whole [a, b] ∧ whole.labels.length ≤ 100000 ∧ history a.calls ≠ [] ∧ history b.calls ≠ [] := by
  obtain ⟨w, hw⟩ := built_exists sample (by decide +kernel)
  obtain ⟨a, ha⟩ := built_exists [(history sample).take 1] (by decide +kernel)
  obtain ⟨b, hb⟩ := built_exists [(history sample).drop 1] (by decide +kernel)
  refine ⟨w, a, b, hw, ?_, ?_, ?_, ?_⟩
  · unfold Split
    rw [hw, List.map_cons, List.map_cons, ha, hb]
    decide +kernel
  · unfold Built.labels; rw [hw]; decide +kernel
  · rw [ha]; decide +kernel
  · rw [hb]; decide +kernel

end Verif.Classification
