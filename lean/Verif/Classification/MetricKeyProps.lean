import Verif.Classification.ReportProps

/-!
# C95 for classification: a metric is identified by its type and parameters
-/

namespace Verif.Classification

/-- All entries of a report of `compute_precision_recall`. -/
def Report.all (R : Report) : List Metric := R.accuracy ++ R.counts ++ R.precision ++ R.recall ++ R.f1

/-- What a metric is about: its type and its parameters. -/
def Metric.key (m : Metric) : String × Option Rat × Option Bool × Option String := (m.type, m.threshold, m.hardmax, m.label)

/-- One entry for each threshold (accuracy), and for each label and threshold one of each of the other types. -/
def requested (names : List String) (ts : List Rat) (hm : Bool) : List (String × Option Rat × Option Bool × Option String) :=
  let per := fun (type : String) => names.flatMap (fun l => ts.map (fun t => (type, some t, some hm, some l)))
  ts.map (fun t => ("Accuracy", some t, some hm, none)) ++ per "Counts" ++ per "Precision" ++ per "Recall" ++ per "F1"

/-- **C95 (classification).** In a report of `compute_precision_recall`, entries with the same type and the same parameters have the same value,
also when a threshold is requested more than once, and the report holds one entry for each label and threshold asked for and nothing else. -/
theorem C95_classification (calls : List (List Classif)) (hv : ∀ c ∈ calls.flatten, c.valid = true)
    (hL : (Loader.init.addAll calls).labels.length ≤ 100000) {frags : List (List Row)}
    (hf : FragmentsOf frags (Loader.init.addAll calls).rows.flatten) {ts : List Rat} (hts : ts ≠ []) (hm : Bool) :
    ∃ R, reportPrecisionRecall frags ts hm (evalLabels frags) = some R ∧
      (∀ m ∈ R.all, ∀ m' ∈ R.all, m.type = m'.type → m.threshold = m'.threshold → m.hardmax = m'.hardmax → m.label = m'.label →
        m.value = m'.value) ∧
      R.all.map Metric.key = requested ((evalLabels frags).map Prod.snd) ts hm ∧
      ((evalLabels frags).map Prod.snd).Perm (Loader.init.addAll calls).labels := by
  obtain ⟨h1, h2, h3⟩ := evalLabels_reach calls hv hf
  set cs := history calls
  set L := (Loader.init.addAll calls).labels with hLdef
  have hc : computePrecisionRecall frags ts hm (evalLabels frags).length none
      = some (ts.map (fun t => toMetrics cs.length (L.map (fun l =>
          ⟨specTP cs t hm l, specFP cs t hm l, specFN cs t hm l, specTN cs t hm l⟩)))) := by
    unfold computePrecisionRecall
    rw [if_neg (by simpa using hts)]
    dsimp only
    rw [show (evalLabels frags).length = L.length from h1, C13_counts calls hv hL frags hf ts hm, numberOfDatums_reach calls hv hf]
    simp only [Option.map_some, List.map_map, Function.comp_def]
    rfl
  refine ⟨_, by
    unfold reportPrecisionRecall
    rw [hc, Option.bind_some, unpackPrecisionRecall_eq h2], ?_, ?_, h3⟩
  · generalize (fun (t : Rat) (l : String) => (⟨specTP cs t hm l, specFP cs t hm l, specFN cs t hm l, specTN cs t hm l⟩ : Counts)) = c
    intro m hm1 m' hm2 e1 e2 e3 e4
    simp only [Report.all, perCell, List.mem_append, List.mem_map, List.mem_flatMap] at hm1 hm2
    rcases hm1 with (((⟨t, _, rfl⟩ | ⟨l, _, t, _, rfl⟩) | ⟨l, _, t, _, rfl⟩) | ⟨l, _, t, _, rfl⟩) | ⟨l, _, t, _, rfl⟩ <;>
    rcases hm2 with (((⟨t', _, rfl⟩ | ⟨l', _, t', _, rfl⟩) | ⟨l', _, t', _, rfl⟩) | ⟨l', _, t', _, rfl⟩) | ⟨l', _, t', _, rfl⟩ <;>
    first
      | (exfalso; revert e1; simp only [Metric.accuracy, Metric.counts, Metric.precision, Metric.recall, Metric.f1Score]; decide)
      | (simp only [Metric.accuracy, Metric.counts, Metric.precision, Metric.recall, Metric.f1Score, Option.some.injEq] at e2 e4 ⊢
         rw [e2]
         try rw [e4])
  · simp only [Report.all, perCell, requested, List.map_append, List.map_flatMap, List.map_map, List.flatMap_map]
    rfl

/-- **C95 (confusion matrix, partial).** If the thresholds do not decrease, matrices with the same type and parameters have the same value.
Missing: other orders (`C95_matrix_violation`). -/
theorem C95_matrix_partial (calls : List (List Classif)) (hv : ∀ c ∈ calls.flatten, c.valid = true)
    (hne : (Loader.init.addAll calls).labels ≠ []) {frags : List (List Row)}
    (hf : FragmentsOf frags (Loader.init.addAll calls).rows.flatten) {ts : List Rat} (hts : ts ≠ []) (hs : ts.Pairwise (· ≤ ·)) (hm : Bool) :
    ∃ R, reportConfusionMatrix frags ts hm (evalLabels frags) = some R ∧ R.map Metric.key = ts.map (fun t => ("ConfusionMatrix", some t, some hm, none)) ∧
      ∀ m ∈ R, ∀ m' ∈ R, m.threshold = m'.threshold → m.value = m'.value := by
  obtain ⟨R, h, hl, hk⟩ := C64_confusion_matrix calls hv hne hf hts hm
  have hk' : ∀ (k : Nat) (t : Rat), ts[k]? = some t → R[k]? = some ⟨"ConfusionMatrix", .matrix
      ((evalLabels frags).map (fun g => (g.2, (evalLabels frags).map (fun p => (p.2, specCell (history calls) t hm g.2 p.2)))))
      ((evalLabels frags).map (fun g => (g.2, specMissed (history calls) t hm g.2))), some t, some hm, none⟩ := by
    intro k t ht
    obtain ⟨hlt, rfl⟩ := List.getElem?_eq_some_iff.mp ht
    refine hk k _ _ ht (List.mem_take_iff_getElem.mpr ⟨k, by omega, rfl⟩) (fun x hx => ?_)
    obtain ⟨i, hi, rfl⟩ := List.mem_take_iff_getElem.mp hx
    rcases Nat.lt_or_ge i k with h1 | h1
    · exact List.pairwise_iff_getElem.mp hs i k (by omega) hlt h1
    · have : i = k := by omega
      subst this
      exact le_refl _
  have hR : R = ts.map (fun t => ⟨"ConfusionMatrix", .matrix
      ((evalLabels frags).map (fun g => (g.2, (evalLabels frags).map (fun p => (p.2, specCell (history calls) t hm g.2 p.2)))))
      ((evalLabels frags).map (fun g => (g.2, specMissed (history calls) t hm g.2))), some t, some hm, none⟩) := by
    apply List.ext_getElem?
    intro k
    rw [List.getElem?_map]
    rcases hk0 : ts[k]? with _ | t
    · rw [List.getElem?_eq_none_iff] at hk0
      rw [Option.map_none, List.getElem?_eq_none_iff]
      omega
    · rw [hk' k t hk0]
      rfl
  refine ⟨R, h, ?_, ?_⟩
  · rw [hR, List.map_map]
    rfl
  · rw [hR]
    intro m h1 m' h2 e
    obtain ⟨t, _, rfl⟩ := List.mem_map.mp h1
    obtain ⟨t', _, rfl⟩ := List.mem_map.mp h2
    simp only [Option.some.injEq] at e
    rw [e]

/-- One image with ground truth `a` and score 3/10 for `a`. -/
def faintCalls : List (List Classif) := [[⟨"d", "a", ["a"], [3/10], ""⟩]]

/-- **C95 (confusion matrix), violation.** With the thresholds 0, 1/2, 0 the report has two matrices with the same type and the same parameters
and different values. -/
theorem C95_matrix_violation :
    let frags := [(Loader.init.addAll faintCalls).rows.flatten]
    ∃ R m m', reportConfusionMatrix frags [0, 1/2, 0] true (evalLabels frags) = some R ∧ m ∈ R ∧ m' ∈ R ∧ m.type = m'.type ∧
      m.threshold = m'.threshold ∧ m.hardmax = m'.hardmax ∧ m.label = m'.label ∧ m.value ≠ m'.value :=
  ⟨[⟨"ConfusionMatrix", .matrix [("a", [("a", 1)])] [("a", 0)], some 0, some true, none⟩,
    ⟨"ConfusionMatrix", .matrix [("a", [("a", 0)])] [("a", 1)], some (1/2), some true, none⟩,
    ⟨"ConfusionMatrix", .matrix [("a", [("a", 0)])] [("a", 1)], some 0, some true, none⟩],
    ⟨"ConfusionMatrix", .matrix [("a", [("a", 1)])] [("a", 0)], some 0, some true, none⟩,
    ⟨"ConfusionMatrix", .matrix [("a", [("a", 0)])] [("a", 1)], some 0, some true, none⟩, by decide +kernel, by decide +kernel, by decide +kernel, rfl, rfl, rfl, rfl,
    by decide +kernel⟩

/-- The hypotheses hold for `sample`, with a repeated threshold. -/
example : (∀ c ∈ sample.flatten, c.valid = true) ∧ (Loader.init.addAll sample).labels.length ≤ 100000 ∧ (Loader.init.addAll sample).labels ≠ [] ∧
    FragmentsOf [(Loader.init.addAll sample).rows.flatten] (Loader.init.addAll sample).rows.flatten ∧ ([0, 1/2, 1/2] : List Rat).Pairwise (· ≤ ·) :=
  ⟨by decide +kernel, by decide +kernel, by decide +kernel, ⟨by simp, by simp⟩, by norm_num⟩

end Verif.Classification
