import Verif.Classification.ThresholdProps
import Verif.Classification.RocProps

/-!
# C108: a label that is never a ground truth, or never predicted, scores zero (`classification/evaluator.py` 524-627,
`classification/computation.py` 7-90)
-/

namespace Verif.Classification

/-- No datum that was added has the label as ground truth. -/
def NeverTrue (cs : List Classif) (v : String) : Prop := ∀ c ∈ cs, c.gt ≠ v

/-- No datum that was added has a score for the label. -/
def NeverPredicted (cs : List Classif) (v : String) : Prop := ∀ c ∈ cs, v ∉ c.preds

theorem spec_never {cs : List Classif} {v : String} (t : Rat) (hm : Bool) (h : NeverTrue cs v) :
    specTP cs t hm v = 0 ∧ specFN cs t hm v = 0 := by
  constructor
  · unfold specTP
    rw [List.sum_eq_zero]
    intro n hn
    obtain ⟨c, hc, rfl⟩ := List.mem_map.1 hn
    rw [List.countP_eq_zero]
    intro i _
    simp [h c hc]
  · unfold specFN
    rw [List.countP_eq_zero]
    intro c hc
    simp [h c hc]

theorem spec_absent {cs : List Classif} {v : String} (t : Rat) (hm : Bool) (h : NeverPredicted cs v) :
    specTP cs t hm v = 0 ∧ specFP cs t hm v = 0 ∧ specTN cs t hm v = 0 := by
  have hno : ∀ c ∈ cs, ∀ i, c.preds[i]? ≠ some v := fun c hc i he => h c hc (List.mem_of_getElem? he)
  refine ⟨?_, ?_, ?_⟩
  · unfold specTP
    rw [List.sum_eq_zero]
    intro n hn
    obtain ⟨c, hc, rfl⟩ := List.mem_map.1 hn
    rw [List.countP_eq_zero]
    intro i _
    simp [hno c hc i]
  · unfold specFP
    rw [List.sum_eq_zero]
    intro n hn
    obtain ⟨c, hc, rfl⟩ := List.mem_map.1 hn
    rw [List.countP_eq_zero]
    intro i _
    simp [hno c hc i]
  · unfold specTN
    rw [List.countP_eq_zero]
    intro c hc
    simp [hno c hc]

theorem trapezoid_zero (pts : List (Rat × Rat)) (h : ∀ p ∈ pts, p.2 = 0) : trapezoid pts = 0 := by
  induction pts with
  | nil => rfl
  | cons a l ih =>
    cases l with
    | nil => rfl
    | cons b rest =>
      unfold trapezoid
      rw [ih (fun p hp => h p (List.mem_cons_of_mem _ hp)), h a (by simp), h b (by simp)]
      ring

/-- Without predictions or without ground truths of the label the area is zero, whatever the curve is. -/
theorem rocauc_zero (frags : List (List Row)) (chunks : List (List RocRow)) (l : Nat) (h : pdCount frags l = 0 ∨ gtCount frags l = 0) :
    rocauc frags chunks l = 0 := by
  unfold rocauc
  generalize gtCount frags l = gt at h
  generalize pdCount frags l = pd at h
  have key : ∀ (c : List (List RocRow)) (acc : Rat × Nat × Nat), acc.1 = 0 → (c.foldl (rocChunk l gt pd) acc).1 = 0 := by
    intro c
    induction c with
    | nil => intro acc ha; exact ha
    | cons x xs ih =>
      intro acc ha
      rw [List.foldl_cons]
      apply ih
      unfold rocChunk
      dsimp only
      split
      · exact ha
      · rename_i hn
        generalize (if acc.2.1 > 0 ∨ acc.2.2 > 0 then acc.2 :: _ else _ : List (Nat × Nat)) = pts
        split
        · exact ha
        · rcases h with h | h
          · exact absurd (Or.inl h) hn
          · dsimp only
            rw [trapezoid_zero, ha, zero_add]
            intro p hp
            obtain ⟨y, _, rfl⟩ := List.mem_map.1 hp
            simp [h, ratio]
  exact key chunks _ rfl

/-- **C108 (classification).** For every sequence of calls, storage layout and thresholds: a label that is never a ground truth, or never
predicted, gets precision, recall, F1 and ROCAUC zero and no true positives; without ground truths nothing is missed, without predictions nothing is
a false positive or a true negative. -/
theorem C108_classification (calls : List (List Classif)) (hv : ∀ c ∈ calls.flatten, c.valid = true)
    (hL : (Loader.init.addAll calls).labels.length ≤ 100000) {frags : List (List Row)}
    (hf : FragmentsOf frags (Loader.init.addAll calls).rows.flatten) {ts : List Rat} (hts : ts ≠ []) (hm : Bool) (chunks : List (List RocRow))
    (hsmall : ((history calls).map (fun c => c.preds.length)).sum ≤ 1000000000) {v : String} (hmem : v ∈ (Loader.init.addAll calls).labels)
    (h : NeverTrue (history calls) v ∨ NeverPredicted (history calls) v) :
    let labels := evalLabels frags
    ∃ R rocs mean, reportPrecisionRecall frags ts hm labels = some R ∧ reportRocauc frags chunks labels = some (rocs, mean) ∧
      (∀ t ∈ ts, ∀ a ∈ [("Precision", R.precision), ("Recall", R.recall), ("F1", R.f1)],
        (⟨a.1, .number 0, some t, some hm, some v⟩ : Metric) ∈ a.2) ∧
      (∀ m ∈ R.precision ++ R.recall ++ R.f1 ++ rocs, m.label = some v → m.value = .number 0) ∧
      (∃ m ∈ rocs, m.label = some v) ∧
      (∀ m ∈ R.counts, m.label = some v → ∃ fp fn tn, m.value = .counts 0 fp fn tn ∧ (NeverTrue (history calls) v → fn = 0) ∧
        (NeverPredicted (history calls) v → fp = 0 ∧ tn = 0)) := by
  intro labels
  obtain ⟨hp, R, r0, r1, r2, r3, r4, r5⟩ := C64_report calls hv hL hf hts hm
  replace r5 := r5 (fun t _ lb _ => le_trans (spec_le _ t hm lb.2) hsmall)
  obtain ⟨areas, mean, q0, q1, _⟩ := C64_rocauc calls hv hf chunks
  have htp : ∀ t, specTP (history calls) t hm v = 0 := by
    intro t
    rcases h with h | h
    · exact (spec_never t hm h).1
    · exact (spec_absent t hm h).1
  obtain ⟨lb, hlb, rfl⟩ := List.mem_map.1 (hp.mem_iff.2 hmem)
  have harea : rocauc frags chunks ((Loader.init.addAll calls).labels.idxOf lb.2) = 0 := by
    apply rocauc_zero
    rcases h with h | h
    · right
      rw [gtCount_eq hf, rows_reach calls]
      rw [dc_gt_blocks (history calls) 0 (covers_reach calls hv), List.countP_eq_zero]
      intro c hc
      simpa using h c hc
    · left
      rw [pdCount_eq hf, rows_reach calls]
      rw [dc_pd_blocks (history calls) 0 (covers_reach calls hv), List.countP_eq_zero]
      intro c hc
      simpa using h c hc
  have hrocs : List.zipWith (fun a (lb : Nat × String) => (⟨"ROCAUC", .number a, none, none, some lb.2⟩ : Metric)) areas (evalLabels frags)
      = (evalLabels frags).map (fun lb => ⟨"ROCAUC", .number (rocauc frags chunks ((Loader.init.addAll calls).labels.idxOf lb.2)), none, none, some lb.2⟩) := by
    rw [q1]
    generalize evalLabels frags = l
    induction l with
    | nil => rfl
    | cons a l ih => simp only [List.map_cons, List.zipWith_cons_cons, ih]
  rw [hrocs] at q0
  refine ⟨R, _, _, r0, q0, ?_, ?_, ⟨_, List.mem_map.2 ⟨lb, hlb, rfl⟩, rfl⟩, ?_⟩
  · intro t ht a ha
    simp only [List.mem_cons, List.not_mem_nil, or_false] at ha
    rcases ha with rfl | rfl | rfl
    · dsimp only
      rw [r3]
      exact List.mem_flatMap.2 ⟨lb, hlb, List.mem_map.2 ⟨t, ht, by simp [htp]⟩⟩
    · dsimp only
      rw [r4]
      exact List.mem_flatMap.2 ⟨lb, hlb, List.mem_map.2 ⟨t, ht, by simp [htp]⟩⟩
    · dsimp only
      rw [r5]
      exact List.mem_flatMap.2 ⟨lb, hlb, List.mem_map.2 ⟨t, ht, by simp [htp]⟩⟩
  · intro m hmm hlab
    rw [r3, r4, r5] at hmm
    simp only [List.mem_append, List.mem_flatMap, List.mem_map] at hmm
    rcases hmm with ((⟨b, _, t, _, rfl⟩ | ⟨b, _, t, _, rfl⟩) | ⟨b, _, t, _, rfl⟩) | ⟨b, _, rfl⟩
    all_goals
      have he : b.2 = lb.2 := Option.some.inj hlab
      simp [he, htp, harea]
  · intro m hmm hlab
    rw [r2] at hmm
    obtain ⟨b, _, hb⟩ := List.mem_flatMap.1 hmm
    obtain ⟨t, _, rfl⟩ := List.mem_map.1 hb
    have he : b.2 = lb.2 := Option.some.inj hlab
    refine ⟨_, _, _, by rw [he, htp], ?_, ?_⟩
    · intro hn
      exact (spec_never t hm hn).2
    · intro hn
      exact (spec_absent t hm hn).2

/-- The conditions of `C108_classification` are met by `sample`: "bird" is never a ground truth. -/
example : NeverTrue (history sample) "bird" ∧ "bird" ∈ (Loader.init.addAll sample).labels ∧
    ((history sample).map (fun c => c.preds.length)).sum ≤ 1000000000 := by
  refine ⟨?_, by decide +kernel, by decide +kernel⟩
  unfold NeverTrue
  decide +kernel

/-- And by a dataset in which "cow" is never predicted. -/
example : NeverPredicted (history [[⟨"d", "cow", ["cat"], [1], ""⟩]]) "cow" ∧
    "cow" ∈ (Loader.init.addAll [[⟨"d", "cow", ["cat"], [1], ""⟩]]).labels := by
  refine ⟨?_, by decide +kernel⟩
  unfold NeverPredicted
  decide +kernel

end Verif.Classification
