import Verif.Detection.ReportMetrics

/-! # C134: the averages of a detection report agree with each other -/

namespace Verif.Detection

/-- The values of reported metrics. -/
def values (ms : List DMetric) : List Rat := ms.filterMap (fun m => (m.rates.head?).join)

theorem sum_map_div {α : Type} (l : List α) (f : α → Rat) (c : Rat) : (l.map (fun a => f a / c)).sum = (l.map f).sum / c := by
  induction l with
  | nil => simp
  | cons a l ih => rw [List.map_cons, List.sum_cons, ih, List.map_cons, List.sum_cons, add_div]

theorem mean_flatMap {α : Type} (l : List α) {g : α → List Rat} {n : Nat} (hn : ∀ a, (g a).length = n) :
    mean (l.flatMap g) = mean (l.map (fun a => mean (g a))) := by
  have h1 : (l.flatMap g).sum = (l.map (fun a => (g a).sum)).sum := by
    induction l with
    | nil => rfl
    | cons a l ih => rw [List.flatMap_cons, List.sum_append, ih, List.map_cons, List.sum_cons]
  have h2 : ((l.flatMap g).length : Rat) = (l.length : Rat) * (n : Rat) := by
    rw [List.length_flatMap]
    simp [hn]
  unfold mean
  simp only [hn]
  rw [sum_map_div, h1, h2, List.length_map, div_div, mul_comm]

theorem sum_map_swap {α β : Type} (l : List α) (m : List β) (f : α → β → Rat) :
    (l.map (fun a => (m.map (f a)).sum)).sum = (m.map (fun b => (l.map (fun a => f a b)).sum)).sum := by
  induction l with
  | nil => simp
  | cons a l ih =>
    simp only [List.map_cons, List.sum_cons, ih]
    rw [← List.sum_map_add]

theorem mean_swap {α β : Type} (l : List α) (m : List β) (f : α → β → Rat) :
    mean (l.map (fun a => mean (m.map (f a)))) = mean (m.map (fun b => mean (l.map (fun a => f a b)))) := by
  unfold mean
  simp only [List.length_map]
  rw [sum_map_div, sum_map_div, sum_map_swap, div_div, div_div, mul_comm]

theorem mean_between {l : List Rat} (hl : l ≠ []) {lo hi : Rat} (h : ∀ x ∈ l, lo ≤ x ∧ x ≤ hi) : lo ≤ mean l ∧ mean l ≤ hi := by
  have hpos : (0 : Rat) < (l.length : Rat) := by exact_mod_cast List.length_pos_iff.2 hl
  have h1 : (l.length : Rat) * lo ≤ l.sum ∧ l.sum ≤ (l.length : Rat) * hi := by
    clear hl hpos
    induction l with
    | nil => simp
    | cons a l ih =>
      obtain ⟨i1, i2⟩ := ih (fun x hx => h x (List.mem_cons_of_mem _ hx))
      obtain ⟨j1, j2⟩ := h a List.mem_cons_self
      rw [List.sum_cons, List.length_cons]
      push_cast
      constructor <;> linarith
  unfold mean
  constructor
  · rw [le_div_iff₀ hpos]; linarith [h1.1]
  · rw [div_le_iff₀ hpos]; linarith [h1.2]

theorem values_map {α : Type} (l : List α) {f : α → DMetric} {g : α → Rat} (h : ∀ a, ((f a).rates.head?).join = some (g a)) :
    values (l.map f) = l.map g := by
  unfold values
  rw [List.filterMap_map]
  induction l with
  | nil => rfl
  | cons a l ih => rw [List.filterMap_cons_some (f := (fun m => (DMetric.rates m).head?.join) ∘ f) (h a), ih, List.map_cons]

theorem values_flatMap {α : Type} (l : List α) (f : α → List DMetric) : values (l.flatMap f) = l.flatMap (fun a => values (f a)) := by
  unfold values
  induction l with
  | nil => rfl
  | cons a l ih => rw [List.flatMap_cons, List.filterMap_append, ih, List.flatMap_cons]

/-- **C134.** In every report the average precision over labels and IoU thresholds is the mean of all reported APs, of the mAPs of the IoU
thresholds and of the averaged APs of the labels alike; the average recall over labels and thresholds is the mean of all reported recalls, of
the ARs, of the mARs of the score thresholds and of the averaged ARs of the labels alike. -/
theorem C134_agree {tables : List (List Row)} (hc : CacheOk tables) {out : List RRow} (h : RankedOf tables out)
    {chunks : List (List RRow)} (hch : chunks.flatten = out) {order : List Rat → List Nat} (ho : IsArgsort order)
    {labels : List (Nat × String)} (hne : labels ≠ []) (hk : (labels.map Prod.fst).Perm (List.range labels.length))
    (hlab : LabelsBelow labels.length tables.flatten) (hsize : ∀ l, gtCount tables l < 2 ^ 64)
    {ious scores : List Rat} (hi : ious ≠ []) (hs : scores ≠ []) :
    ∃ R, computePrecisionRecall order labels tables chunks ious scores = .ok R ∧
      values R.mAPOverIous = [mean (values R.ap)] ∧ values R.mAPOverIous = [mean (values R.mAP)] ∧
      values R.mAPOverIous = [mean (values R.apOverIous)] ∧
      values R.mAROverScores = [mean (values R.recall)] ∧ values R.mAROverScores = [mean (values R.ar)] ∧
      values R.mAROverScores = [mean (values R.mAR)] ∧ values R.mAROverScores = [mean (values R.arOverScores)] := by
  refine ⟨_, C60_report hc h hch ho hne hk hlab hsize hi hs, ?_⟩
  have hA : values (expectedReport tables chunks labels ious scores).mAPOverIous
      = [mean (ious.map (fun t => mean (labels.map (fun lb => apAt tables chunks t (lb.1 : Int)))))] := by
    simp [values, expectedReport, DMetric.rates, Function.comp_def]
  have hR : values (expectedReport tables chunks labels ious scores).mAROverScores
      = [mean (scores.map (fun s => mean (labels.map (fun lb => mean (ious.map (fun t => recallAt tables chunks t s (lb.1 : Int)))))))] := by
    simp [values, expectedReport, DMetric.rates, Function.comp_def]
  rw [hA, hR]
  simp only [List.cons.injEq, and_true]
  unfold expectedReport
  dsimp only
  refine ⟨?_, ?_, ?_, ?_, ?_, ?_, ?_⟩
  · rw [values_flatMap]
    simp only [values_map labels (f := fun lb => DMetric.ap (some (apAt tables chunks _ (lb.1 : Int))) _ lb.2) (fun _ => rfl)]
    rw [mean_flatMap (n := labels.length) ious (fun _ => List.length_map _)]
  · rw [values_map ious (g := fun t => mean ((labels.map (fun lb => (lb.1 : Int))).map (apAt tables chunks t))) (fun _ => rfl)]
    simp only [List.map_map, Function.comp_def]
  · rw [values_map labels (g := fun lb => mean (ious.map (fun t => apAt tables chunks t (lb.1 : Int)))) (fun _ => rfl), mean_swap]
  · rw [values_flatMap]
    simp only [values_flatMap]
    simp only [values_map ious (f := fun t => DMetric.recall (recallAt tables chunks t _ _) _ t _) (fun _ => rfl)]
    rw [mean_flatMap (n := scores.length * ious.length) labels (fun _ => by simp [List.length_flatMap])]
    simp only [mean_flatMap (n := ious.length) scores (fun _ => List.length_map _)]
    rw [mean_swap]
  · rw [values_flatMap]
    simp only [values_map labels (f := fun lb => DMetric.ar (some (mean (ious.map (fun t => recallAt tables chunks t _ (lb.1 : Int))))) ious _ lb.2)
      (fun _ => rfl)]
    rw [mean_flatMap (n := labels.length) scores (fun _ => List.length_map _)]
  · rw [values_map scores (g := fun s => mean ((labels.map (fun lb => (lb.1 : Int))).map
      (fun l => mean (ious.map (fun t => recallAt tables chunks t s l))))) (fun _ => rfl)]
    simp only [List.map_map, Function.comp_def]
  · rw [values_map labels (g := fun lb => mean (scores.map (fun s => mean (ious.map (fun t => recallAt tables chunks t s (lb.1 : Int))))))
      (fun _ => rfl), mean_swap]

/-- **C134 (bounds).** In every report, an interval that holds every reported AP holds the mAP of every IoU threshold, the averaged AP of every
label and the overall average; an interval that holds every reported recall holds all average recalls in the same way. -/
theorem C134_between {tables : List (List Row)} (hc : CacheOk tables) {out : List RRow} (h : RankedOf tables out)
    {chunks : List (List RRow)} (hch : chunks.flatten = out) {order : List Rat → List Nat} (ho : IsArgsort order)
    {labels : List (Nat × String)} (hne : labels ≠ []) (hk : (labels.map Prod.fst).Perm (List.range labels.length))
    (hlab : LabelsBelow labels.length tables.flatten) (hsize : ∀ l, gtCount tables l < 2 ^ 64)
    {ious scores : List Rat} (hi : ious ≠ []) (hs : scores ≠ []) :
    ∃ R, computePrecisionRecall order labels tables chunks ious scores = .ok R ∧ ∀ lo hi : Rat,
      ((∀ x ∈ values R.ap, lo ≤ x ∧ x ≤ hi) → ∀ x ∈ values (R.mAP ++ R.apOverIous ++ R.mAPOverIous), lo ≤ x ∧ x ≤ hi) ∧
      ((∀ x ∈ values R.recall, lo ≤ x ∧ x ≤ hi) →
        ∀ x ∈ values (R.ar ++ R.mAR ++ R.arOverScores ++ R.mAROverScores), lo ≤ x ∧ x ≤ hi) := by
  refine ⟨_, C60_report hc h hch ho hne hk hlab hsize hi hs, fun lo up => ⟨fun H => ?_, fun H => ?_⟩⟩
  · have hap : ∀ t ∈ ious, ∀ lb ∈ labels, lo ≤ apAt tables chunks t (lb.1 : Int) ∧ apAt tables chunks t (lb.1 : Int) ≤ up := by
      intro t ht lb hlb
      apply H
      unfold values
      exact List.mem_filterMap.2 ⟨_, List.mem_flatMap.2 ⟨t, ht, List.mem_map_of_mem hlb⟩, rfl⟩
    have hm : ∀ t ∈ ious, lo ≤ mean ((labels.map (fun lb => (lb.1 : Int))).map (apAt tables chunks t)) ∧
        mean ((labels.map (fun lb => (lb.1 : Int))).map (apAt tables chunks t)) ≤ up := by
      intro t ht
      refine mean_between (by simpa using hne) (fun x hx => ?_)
      obtain ⟨_, hl, rfl⟩ := List.mem_map.1 hx
      obtain ⟨lb, hlb, rfl⟩ := List.mem_map.1 hl
      exact hap t ht lb hlb
    intro x hx
    obtain ⟨m, hmem, hv⟩ := List.mem_filterMap.1 hx
    rcases List.mem_append.1 hmem with hmem | hmem
    · rcases List.mem_append.1 hmem with hmem | hmem
      · obtain ⟨t, ht, rfl⟩ := List.mem_map.1 hmem
        obtain rfl := Option.some.inj hv
        exact hm t ht
      · obtain ⟨lb, hlb, rfl⟩ := List.mem_map.1 hmem
        obtain rfl := Option.some.inj hv
        refine mean_between (by simpa using hi) (fun x hx => ?_)
        obtain ⟨t, ht, rfl⟩ := List.mem_map.1 hx
        exact hap t ht lb hlb
    · obtain rfl := List.mem_singleton.1 hmem
      obtain rfl := Option.some.inj hv
      refine mean_between (by simpa using hi) (fun x hx => ?_)
      obtain ⟨t, ht, rfl⟩ := List.mem_map.1 hx
      exact hm t ht
  · have hrc : ∀ s ∈ scores, ∀ lb ∈ labels, lo ≤ mean (ious.map (fun t => recallAt tables chunks t s (lb.1 : Int))) ∧
        mean (ious.map (fun t => recallAt tables chunks t s (lb.1 : Int))) ≤ up := by
      intro s hs lb hlb
      refine mean_between (by simpa using hi) (fun x hx => ?_)
      obtain ⟨t, ht, rfl⟩ := List.mem_map.1 hx
      apply H
      unfold values
      exact List.mem_filterMap.2 ⟨_, List.mem_flatMap.2 ⟨lb, hlb, List.mem_flatMap.2 ⟨s, hs, List.mem_map_of_mem ht⟩⟩, rfl⟩
    have hm : ∀ s ∈ scores, lo ≤ mean ((labels.map (fun lb => (lb.1 : Int))).map (fun l => mean (ious.map (fun t => recallAt tables chunks t s l)))) ∧
        mean ((labels.map (fun lb => (lb.1 : Int))).map (fun l => mean (ious.map (fun t => recallAt tables chunks t s l)))) ≤ up := by
      intro s hs
      refine mean_between (by simpa using hne) (fun x hx => ?_)
      obtain ⟨_, hl, rfl⟩ := List.mem_map.1 hx
      obtain ⟨lb, hlb, rfl⟩ := List.mem_map.1 hl
      exact hrc s hs lb hlb
    intro x hx
    obtain ⟨m, hmem, hv⟩ := List.mem_filterMap.1 hx
    rcases List.mem_append.1 hmem with hmem | hmem
    · rcases List.mem_append.1 hmem with hmem | hmem
      · rcases List.mem_append.1 hmem with hmem | hmem
        · obtain ⟨s, hs, hmem⟩ := List.mem_flatMap.1 hmem
          obtain ⟨lb, hlb, rfl⟩ := List.mem_map.1 hmem
          obtain rfl := Option.some.inj hv
          exact hrc s hs lb hlb
        · obtain ⟨s, hs, rfl⟩ := List.mem_map.1 hmem
          obtain rfl := Option.some.inj hv
          exact hm s hs
      · obtain ⟨lb, hlb, rfl⟩ := List.mem_map.1 hmem
        obtain rfl := Option.some.inj hv
        refine mean_between (by simpa using hs) (fun x hx => ?_)
        obtain ⟨s, hs, rfl⟩ := List.mem_map.1 hx
        exact hrc s hs lb hlb
    · obtain rfl := List.mem_singleton.1 hmem
      obtain rfl := Option.some.inj hv
      refine mean_between (by simpa using hs) (fun x hx => ?_)
      obtain ⟨s, hs, rfl⟩ := List.mem_map.1 hx
      exact hm s hs

/-- The sample tables with two labels, two IoU and two score thresholds. -/
example : ∃ out R, RankedOf sampleTables out ∧
    computePrecisionRecall stableOrder [(1, "b"), (0, "a")] sampleTables [out] [1 / 2, 7 / 10] [1 / 4, 1 / 2] = .ok R ∧
    (values R.ap).length = 4 ∧ (values R.recall).length = 8 ∧ values R.mAPOverIous = [mean (values R.ap)] := by
  obtain ⟨out, _, h⟩ := rankedOf_file sampleTables _ (Verif.Cache.chunksOf_isBatching 3) 10 20
  have hsize : ∀ l, gtCount sampleTables l < 2 ^ 64 := by
    intro l
    have := C28_groundtruths sampleTables_ok l
    rw [this]
    refine lt_of_le_of_lt (List.Sublist.length_le (List.dedup_sublist _)) ?_
    rw [List.length_map]
    refine lt_of_le_of_lt (List.length_filter_le _ _) ?_
    decide +kernel
  have hr := C60_report sampleTables_ok h (chunks := [out]) (by simp) stableOrder_ok (labels := [(1, "b"), (0, "a")]) (by simp) (by decide)
    (by decide +kernel) hsize (ious := [1 / 2, 7 / 10]) (scores := [1 / 4, 1 / 2]) (by simp) (by simp)
  obtain ⟨R, h1, h2, _⟩ := C134_agree sampleTables_ok h (chunks := [out]) (by simp) stableOrder_ok (labels := [(1, "b"), (0, "a")]) (by simp)
    (by decide) (by decide +kernel) hsize (ious := [1 / 2, 7 / 10]) (scores := [1 / 4, 1 / 2]) (by simp) (by simp)
  refine ⟨out, R, h, h1, ?_, ?_, h2⟩
  · rw [hr] at h1
    obtain rfl := Except.ok.inj h1
    rfl
  · rw [hr] at h1
    obtain rfl := Except.ok.inj h1
    rfl

end Verif.Detection
