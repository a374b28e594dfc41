import Verif.Classification.ReportProps
import Verif.Classification.RocProps

/-! # C76: classification reports and the order of adding -/

namespace Verif.Classification

open Verif.Shared

/-- Both loaders have the same label names. -/
theorem labels_order {calls calls' : List (List Classif)} (hp : (history calls).Perm (history calls'))
    (hv : ∀ c ∈ calls.flatten, c.valid = true) (hv' : ∀ c ∈ calls'.flatten, c.valid = true) :
    (Loader.init.addAll calls).labels.Perm (Loader.init.addAll calls').labels := by
  have key : ∀ {a b : List (List Classif)}, (∀ c ∈ b.flatten, c.valid = true) → (history a).Perm (history b) → ∀ x ∈ (Loader.init.addAll a).labels, x ∈ (Loader.init.addAll b).labels := by
    intro a b hb hab x hx
    obtain ⟨c, hc, h⟩ := (linv_reach a).onlyUsed x hx
    obtain ⟨h1, h2⟩ := covers_reach b hb c (hab.mem_iff.1 hc)
    rcases h with rfl | h
    · exact h1
    · exact h2 x h
  refine (List.perm_ext_iff_of_nodup (linv_reach calls).nodup (linv_reach calls').nodup).2 ?_
  intro x
  exact ⟨key hv' hp x, key hv hp.symm x⟩

theorem evalLabels_order {calls calls' : List (List Classif)} (hp : (history calls).Perm (history calls'))
    (hv : ∀ c ∈ calls.flatten, c.valid = true) (hv' : ∀ c ∈ calls'.flatten, c.valid = true) {frags frags' : List (List Row)}
    (hf : FragmentsOf frags (Loader.init.addAll calls).rows.flatten) (hf' : FragmentsOf frags' (Loader.init.addAll calls').rows.flatten) :
    ((evalLabels frags).map Prod.snd).Perm ((evalLabels frags').map Prod.snd) :=
  (evalLabels_reach calls hv hf).2.2.trans ((labels_order hp hv hv').trans
    (evalLabels_reach calls' hv' hf').2.2.symm)

theorem perCell_names (labels : List (Nat × String)) (ts : List Rat) (f : String → Rat → Metric) :
    perCell labels ts f = (labels.map Prod.snd).flatMap (fun l => ts.map (fun t => f l t)) := by
  unfold perCell
  rw [List.flatMap_map]

/-- The counts of a label and threshold. -/
noncomputable def countsOf (cs : List Classif) (hm : Bool) (t : Rat) (l : String) : Counts :=
  ⟨specTP cs t hm l, specFP cs t hm l, specFN cs t hm l, specTN cs t hm l⟩

theorem countsOf_perm {cs cs' : List Classif} (h : cs.Perm cs') (hm : Bool) : countsOf cs hm = countsOf cs' hm := by
  funext t l
  unfold countsOf specTP specFP specFN specTN
  rw [(h.map _).sum_eq, (h.map _).sum_eq, h.countP_eq, h.countP_eq]

theorem report_eq (calls : List (List Classif)) (hv : ∀ c ∈ calls.flatten, c.valid = true)
    (hL : (Loader.init.addAll calls).labels.length ≤ 100000) {frags : List (List Row)}
    (hf : FragmentsOf frags (Loader.init.addAll calls).rows.flatten) {ts : List Rat} (hts : ts ≠ []) (hm : Bool) :
    let c := countsOf (history calls) hm
    reportPrecisionRecall frags ts hm (evalLabels frags) = some
      ⟨ts.map (fun t => Metric.accuracy (accuracy ((Loader.init.addAll calls).labels.map (c t)) (history calls).length) t hm),
        perCell (evalLabels frags) ts (fun l t => Metric.counts (c t l).tp (c t l).fp (c t l).fn (c t l).tn t hm l),
        perCell (evalLabels frags) ts (fun l t => Metric.precision (precision (c t l)) t hm l),
        perCell (evalLabels frags) ts (fun l t => Metric.recall (recall (c t l)) t hm l),
        perCell (evalLabels frags) ts (fun l t => Metric.f1Score (f1 (precision (c t l)) (recall (c t l))) t hm l)⟩ := by
  intro c
  obtain ⟨h1, h2, _⟩ := evalLabels_reach calls hv hf
  have hc : computePrecisionRecall frags ts hm (evalLabels frags).length none
      = some (ts.map (fun t => toMetrics (history calls).length ((Loader.init.addAll calls).labels.map (c t)))) := by
    unfold computePrecisionRecall
    rw [if_neg (by simpa using hts)]
    dsimp only
    rw [h1, C13_counts calls hv hL frags hf ts hm, numberOfDatums_reach calls hv hf]
    simp only [Option.map_some, List.map_map, Function.comp_def]
    rfl
  unfold reportPrecisionRecall
  rw [hc, Option.bind_some, unpackPrecisionRecall_eq h2]

/-- **C76 (classification).** The same accepted classifications, added in any two orders and calls, cut into tables in any two ways: both
reports succeed, the accuracies agree, and the lists of counts, precision, recall and F1 hold the same metrics. -/
theorem C76_classification {calls calls' : List (List Classif)} (hp : (history calls).Perm (history calls'))
    (hv : ∀ c ∈ calls.flatten, c.valid = true) (hv' : ∀ c ∈ calls'.flatten, c.valid = true) (hL : (Loader.init.addAll calls).labels.length ≤ 100000) {frags frags' : List (List Row)}
    (hf : FragmentsOf frags (Loader.init.addAll calls).rows.flatten) (hf' : FragmentsOf frags' (Loader.init.addAll calls').rows.flatten)
    {ts : List Rat} (hts : ts ≠ []) (hm : Bool) :
    ∃ R R', reportPrecisionRecall frags ts hm (evalLabels frags) = some R ∧
      reportPrecisionRecall frags' ts hm (evalLabels frags') = some R' ∧ R.accuracy = R'.accuracy ∧ R.counts.Perm R'.counts ∧
      R.precision.Perm R'.precision ∧ R.recall.Perm R'.recall ∧ R.f1.Perm R'.f1 := by
  have hlp := labels_order hp hv hv'
  have hcell : ∀ f : String → Rat → Metric, (perCell (evalLabels frags) ts f).Perm (perCell (evalLabels frags') ts f) := by
    intro f
    rw [perCell_names, perCell_names]
    exact (evalLabels_order hp hv hv' hf hf').flatMap_right _
  refine ⟨_, _, report_eq calls hv hL hf hts hm, report_eq calls' hv' (by rw [← hlp.length_eq]; exact hL) hf' hts hm, ?_, ?_, ?_, ?_, ?_⟩
  · dsimp only
    apply List.map_congr_left
    intro t _
    congr 1
    rw [accuracy_eq, accuracy_eq, countsOf_perm hp, hp.length_eq, ((hlp.map _).map _).sum_eq]
  all_goals
    dsimp only
    rw [countsOf_perm hp]
    exact hcell _

/-- What a confusion matrix says about two labels. -/
def cellOf (m : List (String × List (String × Nat))) (g p : String) : Option Nat := (m.lookup g).bind (fun r => r.lookup p)

theorem lookup_names {β : Type} (l : List String) (f : String → β) (g : String) :
    (l.map (fun x => (x, f x))).lookup g = if g ∈ l then some (f g) else none := by
  induction l with
  | nil => rfl
  | cons a l ih =>
    rw [List.map_cons, List.lookup_cons]
    by_cases h : g = a
    · subst h; simp
    · have : (g == a) = false := by simpa using h
      rw [this]
      simp only [ih, List.mem_cons, h, false_or]

theorem cellOf_names (l : List (Nat × String)) (f : String → String → Nat) (g p : String) :
    cellOf (l.map (fun a => (a.2, l.map (fun b => (b.2, f a.2 b.2))))) g p
      = if g ∈ l.map Prod.snd ∧ p ∈ l.map Prod.snd then some (f g p) else none := by
  have e : l.map (fun a => (a.2, l.map (fun b => (b.2, f a.2 b.2))))
      = (l.map Prod.snd).map (fun a => (a, (l.map Prod.snd).map (fun b => (b, f a b)))) := by
    simp only [List.map_map, Function.comp_def]
  unfold cellOf
  rw [e, lookup_names]
  by_cases hg : g ∈ l.map Prod.snd
  · rw [if_pos hg, Option.bind_some, lookup_names]
    by_cases hp : p ∈ l.map Prod.snd
    · rw [if_pos hp, if_pos ⟨hg, hp⟩]
    · rw [if_neg hp, if_neg (fun h => hp h.2)]
  · rw [if_neg hg, if_neg (fun h => hg h.1)]
    rfl

/-- **C76 (confusion matrix).** The confusion matrices say the same about every two labels, threshold by threshold. -/
theorem C76_confusion_matrix {calls calls' : List (List Classif)} (hp : (history calls).Perm (history calls'))
    (hv : ∀ c ∈ calls.flatten, c.valid = true) (hv' : ∀ c ∈ calls'.flatten, c.valid = true) (hne : (Loader.init.addAll calls).labels ≠ []) {frags frags' : List (List Row)}
    (hf : FragmentsOf frags (Loader.init.addAll calls).rows.flatten) (hf' : FragmentsOf frags' (Loader.init.addAll calls').rows.flatten)
    {ts : List Rat} (hts : ts ≠ []) (hm : Bool) :
    ∃ R R', reportConfusionMatrix frags ts hm (evalLabels frags) = some R ∧
      reportConfusionMatrix frags' ts hm (evalLabels frags') = some R' ∧ R.length = ts.length ∧ R'.length = ts.length ∧
      ∀ (k : Nat) (t : Rat), ts[k]? = some t → ∃ m u m' u', R[k]? = some (Metric.mk "ConfusionMatrix" (.matrix m u) (some t) (some hm) none) ∧
        R'[k]? = some (Metric.mk "ConfusionMatrix" (.matrix m' u') (some t) (some hm) none) ∧
        (∀ g p, cellOf m g p = cellOf m' g p) ∧ ∀ g, u.lookup g = u'.lookup g := by
  have hlp := labels_order hp hv hv'
  have hne' : (Loader.init.addAll calls').labels ≠ [] := by
    intro e
    rw [e] at hlp
    exact hne hlp.eq_nil
  obtain ⟨R, e1, l1, h1⟩ := C64_confusion_matrix calls hv hne hf hts hm
  obtain ⟨R', e2, l2, h2⟩ := C64_confusion_matrix calls' hv' hne' hf' hts hm
  refine ⟨R, R', e1, e2, l1, l2, ?_⟩
  intro k t hk
  have hk' : ts.take (k + 1) ≠ [] := by
    intro e
    rw [List.take_eq_nil_iff] at e
    rcases e with e | e
    · omega
    · exact hts e
  have q1 := h1 k t _ hk (List.max_mem hk') (fun x hx => List.le_max_of_mem hx)
  have q2 := h2 k t _ hk (List.max_mem hk') (fun x hx => List.le_max_of_mem hx)
  refine ⟨_, _, _, _, q1, q2, ?_, ?_⟩
  · intro g p
    have hmem : ∀ x, x ∈ (evalLabels frags).map Prod.snd ↔ x ∈ (evalLabels frags').map Prod.snd := fun x => (evalLabels_order hp hv hv' hf hf').mem_iff
    rw [cellOf_names, cellOf_names]
    simp only [hmem]
    unfold specCell
    rw [hp.countP_eq]
  · intro g
    have hmem : ∀ x, x ∈ (evalLabels frags).map Prod.snd ↔ x ∈ (evalLabels frags').map Prod.snd := fun x => (evalLabels_order hp hv hv' hf hf').mem_iff
    have e : ∀ (l : List (Nat × String)) (f : String → Nat), l.map (fun g => (g.2, f g.2)) = (l.map Prod.snd).map (fun g => (g, f g)) := by
      intro l f
      simp only [List.map_map, Function.comp_def]
    rw [e _ (fun g => specMissed (history calls) _ hm g), e _ (fun g => specMissed (history calls') _ hm g), lookup_names, lookup_names]
    simp only [hmem]
    unfold specMissed
    rw [hp.countP_eq]

/-- The statistic behind the ROC area depends on the order of neither side. -/
theorem mannWhitney_perm {P P' N N' : List Rat} (hP : P.Perm P') (hN : N.Perm N') : mannWhitney P N = mannWhitney P' N' := by
  unfold mannWhitney
  rw [hP.length_eq, hN.length_eq, (hN.map _).sum_eq]
  congr 2
  apply List.map_congr_left
  intro n _
  rw [(hP.map _).sum_eq]

/-- **C76 (ROC area), partial.** Under the conditions of `C21_rocauc_partial` for both loaders (positive top score, the label scored
wherever it is the ground truth, no cut right after the first row of the label) the areas agree. Missing: the rest, where the
area is not the statistic (`C22_cut_violation`). -/
theorem C76_rocauc_partial {calls calls' : List (List Classif)} (hp : (history calls).Perm (history calls'))
    (hv : ∀ c ∈ calls.flatten, c.valid = true) (hv' : ∀ c ∈ calls'.flatten, c.valid = true)
    (hnd : ∀ c ∈ history calls, c.preds.Nodup) {l : String} (hl : ∀ c ∈ history calls, c.gt = l → l ∈ c.preds)
    {top : Rat} (htop : top ∈ positives (history calls) l ++ negatives (history calls) l) (htop0 : top ≠ 0)
    (hmax : ∀ s ∈ positives (history calls) l ++ negatives (history calls) l, s ≤ top)
    {frags frags' : List (List Row)} (hf : FragmentsOf frags (Loader.init.addAll calls).rows.flatten)
    (hf' : FragmentsOf frags' (Loader.init.addAll calls').rows.flatten) {tables tables' : List (List IRow)}
    (hperm : tables.flatten.Perm ((Loader.init.addAll calls).rows.flatten.map irow))
    (hperm' : tables'.flatten.Perm ((Loader.init.addAll calls').rows.flatten.map irow))
    (hsort : tables.flatten.Pairwise (fun a b => b.score ≤ a.score)) (hsort' : tables'.flatten.Pairwise (fun a b => b.score ≤ a.score))
    {chunks chunks' : List (List RocRow)}
    (hchunks : chunks.flatten = rocCurve (List.range (Loader.init.addAll calls).labels.length) (Loader.init.addAll calls).labels.length tables)
    (hchunks' : chunks'.flatten
      = rocCurve (List.range (Loader.init.addAll calls').labels.length) (Loader.init.addAll calls').labels.length tables')
    (hcut : NoCut ((Loader.init.addAll calls).labels.idxOf l) chunks) (hcut' : NoCut ((Loader.init.addAll calls').labels.idxOf l) chunks') :
    rocauc frags chunks ((Loader.init.addAll calls).labels.idxOf l) = rocauc frags' chunks' ((Loader.init.addAll calls').labels.idxOf l) := by
  have hP : (positives (history calls) l).Perm (positives (history calls') l) := (hp.filter _).filterMap _
  have hN : (negatives (history calls) l).Perm (negatives (history calls') l) := (hp.filter _).filterMap _
  have hA := hP.append hN
  rw [C21_rocauc_partial calls hv hnd hl htop htop0 hmax hf hperm hsort hchunks hcut,
    C21_rocauc_partial calls' hv' (fun c hc => hnd c (hp.mem_iff.2 hc)) (fun c hc => hl c (hp.mem_iff.2 hc)) (hA.mem_iff.1 htop) htop0
      (fun s hs => hmax s (hA.mem_iff.2 hs)) hf' hperm' hsort' hchunks' hcut']
  exact mannWhitney_perm hP hN

/-- The sample in one call and reversed: the labels get other ids. -/
example : (history sample).Perm (history [sample.flatten.reverse]) ∧ (∀ c ∈ sample.flatten, c.valid = true) ∧
    (∀ c ∈ [sample.flatten.reverse].flatten, c.valid = true) ∧
    (Loader.init.addAll sample).labels ≠ (Loader.init.addAll [sample.flatten.reverse]).labels := by
  refine ⟨?_, by decide +kernel, by decide +kernel, by decide +kernel⟩
  have : history [sample.flatten.reverse] = (history sample).reverse := by decide +kernel
  rw [this]
  exact (List.reverse_perm _).symm

end Verif.Classification
