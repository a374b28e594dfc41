import Verif.Detection.OnlyCurve
import Verif.Detection.OneSidedProps

/-! # C124: reports of a filtered detection evaluator, and of one of the selected annotations -/

namespace Verif.Detection

/-- The labels of an evaluator by id. -/
def Built.names (e : Built) : List String := (Loader.init.addAll e.calls).labels

/-- The average over IoU thresholds of the recall of label `v` at score threshold `s`. -/
def Built.averageRecall (e : Built) (ious : List Rat) (s : Rat) (v : String) : Rat := mean (ious.map (fun t => recall (e.tp t s v) (e.gt v)))

theorem addAll_one (calls : List History) : Loader.init.addAll calls = Loader.init.addAll [calls.flatten] := by
  unfold Loader.addAll
  rw [List.foldl_cons, List.foldl_nil]
  unfold Loader.addData
  rw [List.foldl_flatten]

theorem only_uses {q : Asks} {x : Det × (Nat → Nat → Rat)} {v : String} (h : UsesLabel (q.only x).1 v) : UsesLabel x.1 v := by
  rcases h with ⟨a, ha, hv⟩ | ⟨a, ha, hv⟩
  · obtain ⟨⟨b, k⟩, hz, rfl⟩ := List.mem_map.1 ha
    exact .inl ⟨b, List.mem_of_getElem? (mem_zipIdx'.1 (List.mem_filter.1 hz).1), hv⟩
  · obtain ⟨⟨b, k⟩, hz, rfl⟩ := List.mem_map.1 ha
    refine .inr ⟨b, List.mem_of_getElem? (mem_zipIdx'.1 (List.mem_filter.1 hz).1), ?_⟩
    obtain ⟨w, hw, rfl⟩ := List.mem_map.1 hv
    exact (List.of_mem_zip (List.mem_filter.1 hw).1).1

theorem only_names {e e' : Built} (hH : HistoryOk e.calls.flatten) {q : Asks} (he : e'.calls.flatten = q.dataset e.calls.flatten) :
    ∀ v ∈ e'.names, v ∈ e.names := by
  intro v hv
  unfold Built.names at hv ⊢
  rw [addAll_one, he, mem_labels (dataset_ok q hH)] at hv
  rw [addAll_one, mem_labels hH]
  obtain ⟨x', hx', hu⟩ := hv
  unfold Asks.dataset at hx'
  obtain ⟨⟨x, k⟩, hz, rfl⟩ := List.mem_map.1 hx'
  exact ⟨x, List.mem_of_getElem? (mem_zipIdx'.1 (List.mem_filter.1 hz).1), only_uses hu⟩

theorem own_congr {T T' : List (List Row)} {C C' : List (List RRow)} {k k' : Nat} {v : String} {ious scores : List Rat}
    (hg : gtCount T (k : Int) = gtCount T' (k' : Int)) (ht : ∀ t s, tpTotal t s C (k : Int) = tpTotal t s C' (k' : Int))
    (hf : ∀ t s, fpTotal t s C (k : Int) = fpTotal t s C' (k' : Int))
    (hc : ∀ t, (curveOf t (gtCount T (k : Int)) (k : Int) C).prec = (curveOf t (gtCount T' (k' : Int)) (k' : Int) C').prec ∧
      (curveOf t (gtCount T (k : Int)) (k : Int) C).score = (curveOf t (gtCount T' (k' : Int)) (k' : Int) C').score) :
    ownMetrics T C ious scores (k, v) = ownMetrics T' C' ious scores (k', v) := by
  simp only [hg] at hc
  unfold ownMetrics expectedReport
  simp only [List.map_cons, List.map_nil, apAt, recallAt, precisionOf, List.flatMap_cons, List.flatMap_nil, (hc _).1, (hc _).2, ht, hf, hg]

theorem sum_names {L L' : List String} (hd : L.Nodup) (hd' : L'.Nodup) (hsub : ∀ v ∈ L', v ∈ L) {f : String → Rat}
    (h0 : ∀ v, v ∉ L' → f v = 0) : (L.map f).sum = (L'.map f).sum := by
  have h1 : (L.filter (fun v => decide (v ∈ L'))).Perm L' := by
    refine (List.perm_ext_iff_of_nodup (hd.filter _) hd').2 ?_
    intro v
    rw [List.mem_filter, decide_eq_true_eq]
    exact ⟨fun h => h.2, fun h => ⟨hsub v h, h⟩⟩
  rw [← (h1.map f).sum_eq]
  clear h1 hd hsub
  induction L with
  | nil => rfl
  | cons v L ih =>
    rw [List.map_cons, List.sum_cons, ih, List.filter_cons]
    by_cases hv : v ∈ L'
    · simp [hv]
    · simp [hv, h0 v hv]

/-- A label that no annotation has: no ground truths, average precision and recall zero. -/
theorem label_unused (e : Built) (hH : HistoryOk e.calls.flatten) (hS : SizesOk (Loader.init.addAll e.calls)) {v : String} (h : v ∉ e.names) :
    e.gt v = 0 ∧ (∀ t s, e.tp t s v = 0) ∧ ∀ t, e.ap t v = 0 := by
  have hhold := holding_of_stored e.stored.stored
  have hc := cacheOk_of_holding hhold hH hS.labels
  have hb := labelsBelow_of_holding hhold
  have hid : labelId e.calls v = ((Loader.init.addAll e.calls).labels.length : Int) := by
    unfold labelId
    rw [List.idxOf_eq_length (l := (Loader.init.addAll e.calls).labels) h]
  have hg : e.gt v = 0 := by
    unfold Built.gt
    rw [C28_groundtruths hc, hid]
    have : ((rowsIn e.tables).flatten.filter (fun r => decide (0 ≤ r.gt ∧ r.gl = ((Loader.init.addAll e.calls).labels.length : Int)))) = [] := by
      rw [List.filter_eq_nil_iff]
      intro r hr hd
      obtain ⟨h1, h2⟩ := of_decide_eq_true hd
      have := ((hb r hr).1 h1).2
      omega
    rw [this]
    rfl
  refine ⟨hg, ?_, ?_⟩
  · intro t s
    have := C28_bound hc e.ranked t s (labelId e.calls v) e.chunks rfl
    unfold Built.gt at hg
    unfold Built.tp
    omega
  · intro t
    unfold Built.ap
    apply (curve_zero t _ _ _ _).2
    have := correctRows_le hc e.ranked t (labelId e.calls v)
    unfold Built.gt at hg
    omega

theorem at_id {L : List String} (hnd : L.Nodup) {k : Nat} {v : String} (h : L[k]? = some v) : L.idxOf v = k := by
  obtain ⟨hk, rfl⟩ := List.getElem?_eq_some_iff.1 h
  exact hnd.idxOf_getElem k hk

theorem dict_sum {labels : List (Nat × String)} {L : List String} (hL : L.Nodup) (hk : (labels.map Prod.fst).Nodup)
    (hm : ∀ lb : Nat × String, lb ∈ labels ↔ L[lb.1]? = some lb.2) (f : Int → Rat) :
    mean ((labels.map (fun lb => (lb.1 : Int))).map f) = (L.map (fun v => f ((L.idxOf v : Nat) : Int))).sum / (L.length : Rat) := by
  have hp : (labels.map Prod.snd).Perm L := by
    refine (List.perm_ext_iff_of_nodup ?_ hL).2 ?_
    · refine List.Nodup.map_on ?_ (List.Nodup.of_map _ hk)
      intro x hx y hy he
      have h1 := at_id hL ((hm x).1 hx)
      have h2 := at_id hL ((hm y).1 hy)
      rw [he] at h1
      exact Prod.ext (h1.symm.trans h2) he
    · intro v
      constructor
      · intro hv
        obtain ⟨lb, hlb, rfl⟩ := List.mem_map.1 hv
        exact List.mem_of_getElem? ((hm lb).1 hlb)
      · intro hv
        obtain ⟨k, hk⟩ := List.mem_iff_getElem?.1 hv
        exact List.mem_map.2 ⟨(k, v), (hm _).2 hk, rfl⟩
  unfold mean
  rw [← (hp.map _).sum_eq, ← hp.length_eq, List.length_map, List.length_map, List.length_map, List.map_map, List.map_map]
  congr 2
  apply List.map_congr_left
  intro lb hlb
  simp only [Function.comp]
  rw [at_id hL ((hm lb).1 hlb)]

/-- **C124 (detection).** Filter a detection evaluator by conditions on what the user gave, and build another from only the selected datums and annotations.
Both report. The metrics of the labels that are left are the same in both reports: average precision, average recall, curves, counts, precision, recall
and F1 at all thresholds. Mean average precision and mean average recall are the same sums over labels, but the filtered evaluator divides by the number
of labels before the filter, the other by the number of labels that are left; they agree if every label is left. (Not the same otherwise:
`C124_detection_violation`.) -/
theorem C124_detection_partial (e e' : Built) (hH : HistoryOk e.calls.flatten) (hS : SizesOk (Loader.init.addAll e.calls))
    (hS' : SizesOk (Loader.init.addAll e'.calls)) (hD : DistinctLabels e.calls.flatten) (q : Asks) (he : e'.calls.flatten = q.dataset e.calls.flatten)
    (hne : e'.names ≠ []) {ft : List (List FRow)} (hf : StoredSorted (filterTables q.d q.g q.p e.tables) ft) {chunks : List (List RRow)}
    (hr : RankedOf (rowsIn ft) chunks.flatten) {order order' : List Rat → List Nat} (ho : IsArgsort order) (ho' : IsArgsort order')
    {ious scores : List Rat} (hi : ious ≠ []) (hs : scores ≠ []) :
    ∃ R A, computePrecisionRecall order (tableLabels e.tables) (rowsIn ft) chunks ious scores = .ok R ∧
      computePrecisionRecall order' (tableLabels e'.tables) (rowsIn e'.tables) e'.chunks ious scores = .ok A ∧
      (∀ m, ∀ v ∈ e'.names, m.label? = some v → (m ∈ R.all ↔ m ∈ A.all)) ∧
      R.mAP = ious.map (fun t => .mAP (some ((e'.names.map (e'.ap t)).sum / e.names.length)) t) ∧
      A.mAP = ious.map (fun t => .mAP (some ((e'.names.map (e'.ap t)).sum / e'.names.length)) t) ∧
      R.mAR = scores.map (fun s => .mAR (some ((e'.names.map (e'.averageRecall ious s)).sum / e.names.length)) ious s) ∧
      A.mAR = scores.map (fun s => .mAR (some ((e'.names.map (e'.averageRecall ious s)).sum / e'.names.length)) ious s) ∧
      ((∀ v ∈ e.names, v ∈ e'.names) → R.mAP = A.mAP ∧ R.mAR = A.mAR) := by
  have hH' : HistoryOk e'.calls.flatten := by rw [he]; exact dataset_ok q hH
  have hsub := only_names hH he
  have hne1 : e.names ≠ [] := by
    obtain ⟨v, hv⟩ := List.exists_mem_of_ne_nil _ hne
    exact List.ne_nil_of_mem (hsub v hv)
  have hnd : e.names.Nodup := (linv_addAll e.calls).nodup
  have hnd' : e'.names.Nodup := (linv_addAll e'.calls).nodup
  -- the labels of both
  obtain ⟨hm, _⟩ := C60_end_to_end e.calls (fun x hx => hH.detOk hx) hH hS hne1 e.stored.stored e.ranked rfl ho hi hs
  obtain ⟨hm', hA⟩ := C60_end_to_end e'.calls (fun x hx => hH'.detOk hx) hH' hS' hne e'.stored.stored e'.ranked rfl ho' hi hs
  obtain ⟨hlen, hk, _, _⟩ := loaded_labels e.calls (fun x hx => hH.detOk hx) e.stored.stored
  obtain ⟨_, hk', _, _⟩ := loaded_labels e'.calls (fun x hx => hH'.detOk hx) e'.stored.stored
  change ∀ lb, lb ∈ tableLabels e.tables ↔ e.names[lb.1]? = some lb.2 at hm
  change ∀ lb, lb ∈ tableLabels e'.tables ↔ e'.names[lb.1]? = some lb.2 at hm'
  change (tableLabels e.tables).length = e.names.length at hlen
  change ((tableLabels e.tables).map Prod.fst).Perm (List.range (tableLabels e.tables).length) at hk
  change ((tableLabels e'.tables).map Prod.fst).Perm (List.range (tableLabels e'.tables).length) at hk'
  have hkn := hk.nodup_iff.2 List.nodup_range
  have hkn' := hk'.nodup_iff.2 List.nodup_range
  -- the report of the filtered evaluator
  have hhold := holding_of_stored e.stored.stored
  have hc1 := cacheOk_of_holding hhold hH hS.labels
  have hc2 := C33_cacheOk hf.stored hc1
  have hcount := fun t s v => C122_only_partial e e' hH hS hS' hD q he hf hr t s v
  have hcurve := fun t v => C122_only_curve_partial e e' hH hS hS' hD q he hf hr t v
  have hb1 : LabelsBelow (tableLabels e.tables).length (rowsIn ft).flatten := by
    apply C33_labelsBelow hf.stored
    rw [hlen]
    exact labelsBelow_of_holding hhold
  have hsize : ∀ l, gtCount (rowsIn ft) l < 2 ^ 64 := by
    intro l
    have h3 := gtCount_bound hhold hc1 hH l
    have h4 : gtCount (rowsIn ft) l ≤ gtCount (rowsIn e.tables) l := by
      rw [(C33_counts hf.stored hc1 l).1, C28_groundtruths hc1]
      apply List.Subperm.length_le
      apply List.Nodup.subperm (List.nodup_dedup _)
      intro z hz
      rw [List.mem_dedup, List.mem_map] at hz ⊢
      obtain ⟨r, hr, rfl⟩ := hz
      obtain ⟨hr, hd⟩ := List.mem_filter.1 hr
      rw [decide_eq_true_eq] at hd
      refine ⟨r.row, List.mem_filter.2 ⟨?_, decide_eq_true ⟨hd.1, hd.2.1⟩⟩, rfl⟩
      rw [rowsIn_flatten]
      exact List.mem_map_of_mem hr
    have := hS.gts
    omega
  have hne0 : tableLabels e.tables ≠ [] := by
    intro h0
    rw [h0] at hlen
    exact hne1 (List.length_eq_zero_iff.1 hlen.symm)
  have hR := C60_report hc2 hr rfl ho hne0 hk hb1 hsize hi hs
  -- sums over labels
  have hz := fun v => label_unused e' hH' hS' (v := v)
  have hapR : ∀ t, mean (((tableLabels e.tables).map (fun lb => (lb.1 : Int))).map (apAt (rowsIn ft) chunks t))
      = (e'.names.map (e'.ap t)).sum / e.names.length := by
    intro t
    rw [dict_sum hnd hkn hm, ← sum_names hnd hnd' hsub (f := e'.ap t) (fun v hv => (hz v hv).2.2 t)]
    congr 2
    apply List.map_congr_left
    intro v _
    exact (hcurve t v).2.2
  have hapA : ∀ t, mean (((tableLabels e'.tables).map (fun lb => (lb.1 : Int))).map (apAt (rowsIn e'.tables) e'.chunks t))
      = (e'.names.map (e'.ap t)).sum / e'.names.length := by
    intro t
    rw [dict_sum hnd' hkn' hm']
    rfl
  have harR : ∀ s, mean (((tableLabels e.tables).map (fun lb => (lb.1 : Int))).map (fun l => mean (ious.map (fun t => recallAt (rowsIn ft) chunks t s l))))
      = (e'.names.map (e'.averageRecall ious s)).sum / e.names.length := by
    intro s
    rw [dict_sum hnd hkn hm, ← sum_names hnd hnd' hsub (f := e'.averageRecall ious s)]
    · congr 2
      apply List.map_congr_left
      intro v _
      unfold Built.averageRecall
      congr 1
      apply List.map_congr_left
      intro t _
      obtain ⟨h1, h2, _⟩ := hcount t s v
      unfold recallAt
      change recall (tpTotal t s chunks (labelId e.calls v)) (gtCount (rowsIn ft) (labelId e.calls v)) = _
      rw [h1, h2]
    · intro v hv
      obtain ⟨h1, h2, _⟩ := hz v hv
      unfold Built.averageRecall
      simp only [h1, h2]
      have : recall 0 0 = 0 := by unfold recall; simp
      unfold mean
      simp [this]
  have harA : ∀ s, mean (((tableLabels e'.tables).map (fun lb => (lb.1 : Int))).map (fun l => mean (ious.map (fun t => recallAt (rowsIn e'.tables) e'.chunks t s l))))
      = (e'.names.map (e'.averageRecall ious s)).sum / e'.names.length := by
    intro s
    rw [dict_sum hnd' hkn' hm']
    rfl
  have a1 : (expectedReport (rowsIn ft) chunks (tableLabels e.tables) ious scores).mAP
      = ious.map (fun t => .mAP (some ((e'.names.map (e'.ap t)).sum / e.names.length)) t) := by
    simp only [expectedReport, hapR]
  have a2 : (expectedReport (rowsIn e'.tables) e'.chunks (tableLabels e'.tables) ious scores).mAP
      = ious.map (fun t => .mAP (some ((e'.names.map (e'.ap t)).sum / e'.names.length)) t) := by
    simp only [expectedReport, hapA]
  have a3 : (expectedReport (rowsIn ft) chunks (tableLabels e.tables) ious scores).mAR
      = scores.map (fun s => .mAR (some ((e'.names.map (e'.averageRecall ious s)).sum / e.names.length)) ious s) := by
    simp only [expectedReport, harR]
  have a4 : (expectedReport (rowsIn e'.tables) e'.chunks (tableLabels e'.tables) ious scores).mAR
      = scores.map (fun s => .mAR (some ((e'.names.map (e'.averageRecall ious s)).sum / e'.names.length)) ious s) := by
    simp only [expectedReport, harA]
  refine ⟨_, _, hR, hA, ?_, a1, a2, a3, a4, ?_⟩
  · intro m v hv hl
    change _ ↔ m ∈ (expectedReport (rowsIn e'.tables) e'.chunks (tableLabels e'.tables) ious scores).all
    rw [mem_report (by rw [hl]; rfl), mem_report (by rw [hl]; rfl)]
    have hown : ownMetrics (rowsIn ft) chunks ious scores (e.names.idxOf v, v) = ownMetrics (rowsIn e'.tables) e'.chunks ious scores (e'.names.idxOf v, v) :=
      own_congr (hcount 0 0 v).1 (fun t s => (hcount t s v).2.1) (fun t s => (hcount t s v).2.2.1)
        (fun t => ⟨(hcurve t v).1, (hcurve t v).2.1⟩)
    have hget : ∀ L : List String, v ∈ L → L[L.idxOf v]? = some v := by
      intro L hv
      rw [List.getElem?_eq_getElem (List.idxOf_lt_length_of_mem hv)]
      simp
    constructor
    · rintro ⟨lb, hlb, hmm⟩
      have h1 := own_label hmm
      rw [hl] at h1
      have h2 := at_id hnd ((hm lb).1 hlb)
      rw [← Option.some.inj h1] at h2
      have h3 : lb = (e.names.idxOf v, v) := Prod.ext h2.symm (Option.some.inj h1).symm
      exact ⟨(e'.names.idxOf v, v), (hm' _).2 (hget _ hv), by rw [← hown, ← h3]; exact hmm⟩
    · rintro ⟨lb, hlb, hmm⟩
      have h1 := own_label hmm
      rw [hl] at h1
      have h2 := at_id hnd' ((hm' lb).1 hlb)
      rw [← Option.some.inj h1] at h2
      have h3 : lb = (e'.names.idxOf v, v) := Prod.ext h2.symm (Option.some.inj h1).symm
      exact ⟨(e.names.idxOf v, v), (hm _).2 (hget _ (hsub v hv)), by rw [hown, ← h3]; exact hmm⟩
  · intro hall
    have hperm : e.names.Perm e'.names := (List.perm_ext_iff_of_nodup hnd hnd').2 fun v => ⟨hall v, hsub v⟩
    change _ = (expectedReport (rowsIn e'.tables) e'.chunks (tableLabels e'.tables) ious scores).mAP ∧
      _ = (expectedReport (rowsIn e'.tables) e'.chunks (tableLabels e'.tables) ious scores).mAR
    rw [a1, a2, a3, a4, hperm.length_eq]
    exact ⟨rfl, rfl⟩

/-- The full claim for mean average precision. -/
def SameMeans : Prop :=
  ∀ (e e' : Built), HistoryOk e.calls.flatten → SizesOk (Loader.init.addAll e.calls) → SizesOk (Loader.init.addAll e'.calls) →
    DistinctLabels e.calls.flatten → ∀ (q : Asks), e'.calls.flatten = q.dataset e.calls.flatten → e'.names ≠ [] →
    ∀ {ft : List (List FRow)}, StoredSorted (filterTables q.d q.g q.p e.tables) ft → ∀ {chunks : List (List RRow)},
    RankedOf (rowsIn ft) chunks.flatten → ∀ {order order' : List Rat → List Nat}, IsArgsort order → IsArgsort order' →
    ∀ {ious scores : List Rat}, ious ≠ [] → scores ≠ [] →
    ∀ R A, computePrecisionRecall order (tableLabels e.tables) (rowsIn ft) chunks ious scores = .ok R →
      computePrecisionRecall order' (tableLabels e'.tables) (rowsIn e'.tables) e'.chunks ious scores = .ok A → R.mAP = A.mAP

/-- An image with an object of the given label that is found exactly. -/
def foundImage (u v : String) : Det × (Nat → Nat → Rat) := (⟨u, [⟨"g", [v], [], ""⟩], [⟨"p", [v], [9/10], ""⟩], ""⟩, fun _ _ => 1)

/-- The datum with id `a`. -/
def onlyA : Asks := ⟨fun u => decide (u = "a"), fun _ _ _ => true, fun _ _ _ _ => true⟩

theorem onlyA_dataset : onlyA.dataset [foundImage "a" "cat", foundImage "b" "dog"] = [foundImage "a" "cat"] := by
  unfold Asks.dataset
  have e : onlyA.datumsOf [foundImage "a" "cat", foundImage "b" "dog"] = [(foundImage "a" "cat", 0)] := rfl
  rw [e, List.map_singleton]
  congr 1

theorem foundImages_ok : HistoryOk [foundImage "a" "cat", foundImage "b" "dog"] ∧ DistinctLabels [foundImage "a" "cat", foundImage "b" "dog"] := by
  refine ⟨⟨by simp [foundImage], by simp [foundImage], ?_⟩, by simp [DistinctLabels, foundImage]⟩
  intro x hx p g
  rcases List.mem_pair.1 hx with rfl | rfl <;> norm_num [foundImage]

/-- **C124 (detection), violation.** Two images, one with a cat and one with a dog, both found exactly. Filtered to the first image the evaluator reports
a mean average precision of 1/2; an evaluator of the first image alone reports 1. -/
theorem C124_detection_violation : ¬ SameMeans := by
  intro h
  obtain ⟨e, he⟩ := built_exists [[foundImage "a" "cat", foundImage "b" "dog"]]
  have hst' : StoredSorted (Loader.init.addAll [[foundImage "a" "cat"]]).rows [(Loader.init.addAll [[foundImage "a" "cat"]]).rows.flatten] := by
    have := storedSorted_mem (Loader.init.addAll [[foundImage "a" "cat"]]).rows
    have e : (Loader.init.addAll [[foundImage "a" "cat"]]).rows.flatten = Verif.Cache.sortBy fKey (Loader.init.addAll [[foundImage "a" "cat"]]).rows.flatten := by
      unfold Verif.Cache.sortBy
      rw [List.mergeSort_of_pairwise]
      decide +kernel
    rw [← e] at this
    exact this
  let e' : Built := ⟨[[foundImage "a" "cat"]], [(Loader.init.addAll [[foundImage "a" "cat"]]).rows.flatten], [_], hst', by
    rw [List.flatten_singleton]; exact rankedOf_mem _⟩
  have hH : HistoryOk e.calls.flatten := by rw [he, List.flatten_singleton]; exact foundImages_ok.1
  have hD : DistinctLabels e.calls.flatten := by rw [he, List.flatten_singleton]; exact foundImages_ok.2
  have hS : SizesOk (Loader.init.addAll e.calls) := by rw [he]; exact ⟨by decide +kernel, by decide +kernel, by decide +kernel, by decide +kernel⟩
  have hS' : SizesOk (Loader.init.addAll e'.calls) := by
    show SizesOk (Loader.init.addAll [[foundImage "a" "cat"]])
    exact ⟨by decide +kernel, by decide +kernel, by decide +kernel, by decide +kernel⟩
  have hd : e'.calls.flatten = onlyA.dataset e.calls.flatten := by
    show [[foundImage "a" "cat"]].flatten = _
    rw [he, List.flatten_singleton, List.flatten_singleton, onlyA_dataset]
  have hn' : e'.names = ["cat"] := by
    show (Loader.init.addAll [[foundImage "a" "cat"]]).labels = _
    decide +kernel
  have hn : e.names = ["cat", "dog"] := by
    unfold Built.names
    rw [he]
    decide +kernel
  have hr : RankedOf (rowsIn [Verif.Cache.sortBy fKey (filterTables onlyA.d onlyA.g onlyA.p e.tables).flatten])
      [rankTable ((Verif.Cache.sortBy fKey (filterTables onlyA.d onlyA.g onlyA.p e.tables).flatten).map FRow.row)].flatten := by
    rw [List.flatten_singleton]; exact rankedOf_mem _
  obtain ⟨R, A, h1, h2, _, h3, h4, _⟩ := C124_detection_partial e e' hH hS hS' hD onlyA hd (by rw [hn']; simp) (storedSorted_mem _) hr stableOrder_ok stableOrder_ok
    (ious := [1/2]) (scores := [1/2]) (by simp) (by simp)
  have key := h e e' hH hS hS' hD onlyA hd (by rw [hn']; simp) (storedSorted_mem _) hr stableOrder_ok stableOrder_ok
    (by simp) (by simp) R A h1 h2
  rw [h3, h4, hn, hn'] at key
  have hap : e'.ap (1 / 2) "cat" = 1 := by
    show averagePrecision (curveOf (1 / 2) (gtCount (rowsIn [(Loader.init.addAll [[foundImage "a" "cat"]]).rows.flatten]) (labelId [[foundImage "a" "cat"]] "cat"))
      (labelId [[foundImage "a" "cat"]] "cat") [rankTable (((Loader.init.addAll [[foundImage "a" "cat"]]).rows.flatten).map FRow.row)]).prec = 1
    decide +kernel
  simp only [List.map_cons, List.map_nil, List.sum_cons, List.sum_nil, hap, List.length_cons, List.length_nil, List.cons.injEq, and_true, DMetric.mAP.injEq,
    Option.some.injEq] at key
  norm_num at key

/-- The conditions of `C124_detection_partial` are met by two images, filtered to the first. -/
example : ∃ e e' : Built, HistoryOk e.calls.flatten ∧ SizesOk (Loader.init.addAll e.calls) ∧ SizesOk (Loader.init.addAll e'.calls) ∧
    DistinctLabels e.calls.flatten ∧ e'.calls.flatten = onlyA.dataset e.calls.flatten ∧ e'.names = ["cat"] ∧ e.names = ["cat", "dog"] ∧
    ∃ ft chunks, StoredSorted (filterTables onlyA.d onlyA.g onlyA.p e.tables) ft ∧ RankedOf (rowsIn ft) (List.flatten chunks) := by
  obtain ⟨e, he⟩ := built_exists [[foundImage "a" "cat", foundImage "b" "dog"]]
  obtain ⟨e', he'⟩ := built_exists [[foundImage "a" "cat"]]
  refine ⟨e, e', ?_, ?_, ?_, ?_, ?_, ?_, ?_, _,
    [rankTable ((Verif.Cache.sortBy fKey (filterTables onlyA.d onlyA.g onlyA.p e.tables).flatten).map FRow.row)], storedSorted_mem _, ?_⟩
  · rw [he, List.flatten_singleton]; exact foundImages_ok.1
  · rw [he]; exact ⟨by decide +kernel, by decide +kernel, by decide +kernel, by decide +kernel⟩
  · rw [he']; exact ⟨by decide +kernel, by decide +kernel, by decide +kernel, by decide +kernel⟩
  · rw [he, List.flatten_singleton]; exact foundImages_ok.2
  · rw [he, he', List.flatten_singleton, List.flatten_singleton, onlyA_dataset]
  · unfold Built.names; rw [he']; decide +kernel
  · unfold Built.names; rw [he]; decide +kernel
  · rw [List.flatten_singleton]; exact rankedOf_mem _

end Verif.Detection
