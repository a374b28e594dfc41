import Verif.Detection.ReportMetrics
import Verif.Detection.CmReportProps
import Verif.Detection.DivisionEndToEnd

/-! # C56: the reports of object detection under a datum filter -/

namespace Verif.Detection

open Verif.Shared

/-- The rows and the marks read through a datum filter are those of the filtered evaluator. -/
theorem filtered_alike {rows : List Row} (hok : RowsOk rows) (D : Int → Bool) {t1 t2 : List (List Row)} (h1 : Divides rows t1)
    (h2 : Divides (rows.filter (fun r => D r.datum)) t2) {out1 out2 : List RRow} (r1 : RankedOf t1 out1) (r2 : RankedOf t2 out2)
    (t : Rat) : Alike t (readRanked D out1) out2 := by
  have hok2 := hok.filter (fun r => D r.datum)
  refine alike_of_rows (filtered_first D (outer_first (divides_ok h1 hok) r1 t)) (outer_first (divides_ok h2 hok2) r2 t) ?_
  rw [ranked_canonical h2 hok2 r2]
  have : (readRanked D out1).map RRow.row = (out1.map RRow.row).filter (fun r => D r.datum) := by
    rw [List.filter_map]
    rfl
  rw [this, ranked_canonical h1 hok r1, lexsort_filter]
  congr 1
  exact chosen_filter D hok.pds

theorem alike_correct {t : Rat} {a b : List RRow} (h : Alike t a b) (l : Int) : correctRows t l a = correctRows t l b := by
  have e : ∀ rows : List RRow, correctRows t l rows = (rows.filter (fun r => decide (r.row.pl = l) && tpOuter t r)).length := by
    intro rows
    unfold correctRows
    rw [List.count, List.countP_map, List.countP_filter, List.countP_eq_length_filter]
    congr 1
    apply List.filter_congr
    intro r _
    rw [Bool.eq_iff_iff]
    simp [and_comm]
  rw [e, e]
  exact alike_filter_length h (fun r d => decide (r.pl = l) && d)

theorem expectedReport_congr {ta tb : List (List Row)} {ca cb : List (List RRow)} {labels : List (Nat × String)} {ious scores : List Rat}
    (hg : ∀ l, gtCount ta l = gtCount tb l) (htp : ∀ t s l, tpTotal t s ca l = tpTotal t s cb l)
    (hfp : ∀ t s l, fpTotal t s ca l = fpTotal t s cb l)
    (hp : ∀ t l, (curveOf t (gtCount ta l) l ca).prec = (curveOf t (gtCount tb l) l cb).prec)
    (hsc : ∀ t l, (curveOf t (gtCount ta l) l ca).score = (curveOf t (gtCount tb l) l cb).score) :
    expectedReport ta ca labels ious scores = expectedReport tb cb labels ious scores := by
  have ea : apAt ta ca = apAt tb cb := by
    funext t l
    unfold apAt
    rw [hp]
  have er : recallAt ta ca = recallAt tb cb := by
    funext t s l
    unfold recallAt
    rw [htp, hg]
  have ep : precisionOf ca = precisionOf cb := by
    funext t s l
    unfold precisionOf
    rw [htp, hfp]
  unfold expectedReport
  simp only [ea, er, ep, hp, hsc, htp, hfp]
  simp only [hg]

/-- The labels that `extract_labels` reads from the tables. -/
theorem loaded_labels (calls : List History) (hv : ∀ x ∈ calls.flatten, DetOk x.1) {ftables : List (List FRow)}
    (hst : Stored (Loader.init.addAll calls).rows ftables) :
    let labels := (extractLabels (ftables.map (fun t => t.map labelCols))).map (fun x => (x.1.toNat, x.2))
    labels.length = (Loader.init.addAll calls).labels.length ∧ (labels.map Prod.fst).Perm (List.range labels.length) ∧
    (∀ lb ∈ labels, (Loader.init.addAll calls).labels[lb.1]? = some lb.2) ∧ (labels.map Prod.snd).Nodup := by
  intro labels
  obtain ⟨d1, d2⟩ := C50_detection calls hv hst
  obtain ⟨k1, k2⟩ := dict_keys d1 d2
  have hlen : labels.length = (Loader.init.addAll calls).labels.length := by
    rw [← k2]
    simp [labels]
  have hkeys : labels.map Prod.fst = (extractLabels (ftables.map (fun t => t.map labelCols))).map (fun x => x.1.toNat) := by
    simp [labels]
  have hlab : ∀ lb ∈ labels, (Loader.init.addAll calls).labels[lb.1]? = some lb.2 := by
    intro lb hlb
    obtain ⟨x, hx, rfl⟩ := List.mem_map.1 hlb
    refine ((d2 x.1 x.2).1 ?_).2
    rw [List.lookup_eq_some_iff]
    obtain ⟨l1, l2, he⟩ := List.append_of_mem hx
    refine ⟨l1, l2, he, ?_⟩
    intro p hp
    rw [he, List.map_append, List.nodup_append] at d1
    have := d1.2.2 p.1 (List.mem_map_of_mem (f := Prod.fst) hp) x.1 (by simp)
    simpa using this.symm
  refine ⟨hlen, by rw [hkeys, hlen]; exact k1, hlab, ?_⟩
  have hln := (C34_rows calls).1
  have hkn : (labels.map Prod.fst).Nodup := by
    rw [hkeys]
    exact k1.nodup_iff.2 List.nodup_range
  have hinj : ∀ x ∈ labels, ∀ y ∈ labels, x.2 = y.2 → x = y := by
    intro x hx y hy he
    have h1 := hlab x hx
    have h2 := hlab y hy
    rw [← he] at h2
    have hlt := getElem?_lt h1
    have hlt2 := getElem?_lt h2
    rw [List.getElem?_eq_getElem hlt] at h1
    rw [List.getElem?_eq_getElem hlt2] at h2
    have := (hln.getElem_inj_iff).1 ((Option.some.inj h1).trans (Option.some.inj h2).symm)
    exact Prod.ext this he
  exact List.Nodup.map_on hinj (List.Nodup.of_map _ hkn)

/-- **C56 (the reports of detection).** For all detections added in any calls, every storage of the cache, every filter
expression on datums and all thresholds: `compute_precision_recall` and `compute_confusion_matrix` with the filter succeed
and return, metric for metric and in the same order, what they return without it on the evaluator of `filter`, which keeps
the labels of the unfiltered one. -/
theorem C56_detection_report {calls : List History} (hH : HistoryOk calls.flatten)
    (hS : SizesOk (Loader.init.addAll calls)) (hne : (Loader.init.addAll calls).labels ≠ [])
    {t1 t2 : List (List FRow)} (h1 : StoredSorted (Loader.init.addAll calls).rows t1)
    (d : Expr) (D : Int → Bool) (hd : ∀ f ∈ (Loader.init.addAll calls).rows.flatten, d f = D f.row.datum)
    (h2 : StoredSorted (filterTables (some d) none none t1) t2)
    {out1 out2 : List RRow} (r1 : RankedOf (rowsIn t1) out1) (r2 : RankedOf (rowsIn t2) out2) {chunks1 chunks2 : List (List RRow)}
    (c1 : chunks1.flatten = out1) (c2 : chunks2.flatten = out2) {order order' : List Rat → List Nat} (ho : IsArgsort order)
    (ho' : IsArgsort order') {ious scores : List Rat} (hi : ious ≠ []) (hs : scores ≠ []) :
    let labels := (extractLabels (t1.map (fun t => t.map labelCols))).map (fun x => (x.1.toNat, x.2))
    let read := rowsIn (t1.map (readTable (some d)))
    let readR := chunks1.map (readRanked D)
    (∃ R, computePrecisionRecall order labels read readR ious scores = .ok R ∧
      computePrecisionRecall order' labels (rowsIn t2) chunks2 ious scores = .ok R) ∧
    ∃ M, computeConfusionMatrix labels read ious scores = .ok M ∧ computeConfusionMatrix labels (rowsIn t2) ious scores = .ok M := by
  intro labels read readR
  obtain ⟨k1, _⟩ := loader_ok hH hS
  have hv : ∀ x ∈ calls.flatten, DetOk x.1 := by
    intro x hx
    refine ⟨fun a ha he => ?_, fun a ha => hH.pdLabel x hx a ha⟩
    have := hH.gtLabel x hx a ha
    rw [he] at this
    simp at this
  obtain ⟨hlen, hk, hlab, hnames⟩ := loaded_labels calls hv h1.stored
  change labels.length = _ at hlen
  change (labels.map Prod.fst).Perm (List.range labels.length) at hk
  change ∀ lb ∈ labels, _ at hlab
  have hhold := holding_of_stored h1.stored
  have hc1 := cacheOk_of_holding hhold hH hS.labels
  have hdiv1 := loader_divides h1
  have hdiv := filter_divides h1 d D hd h2
  have hc2 := divides_ok hdiv (k1.filter _)
  have hlne : labels ≠ [] := by
    intro he
    rw [he] at hlen
    exact hne (List.length_eq_zero_iff.1 hlen.symm)
  have hread : read = (rowsIn t1).map (fun tbl => tbl.filter (fun r => D r.datum)) := by
    show rowsIn (t1.map (readTable (some d))) = _
    unfold rowsIn
    rw [List.map_map, List.map_map]
    apply List.map_congr_left
    intro tbl htbl
    unfold readTable
    simp only [Function.comp_apply]
    rw [List.filter_map]
    congr 1
    apply List.filter_congr
    intro f hf
    exact hd f ((stored_mem_iff h1.stored f).1 (List.mem_flatten.2 ⟨tbl, htbl, hf⟩))
  have hflat : ∀ r, r ∈ read.flatten → r ∈ (rowsIn t1).flatten := by
    intro r hr
    rw [hread, ← List.filter_flatten] at hr
    exact (List.mem_filter.1 hr).1
  have hflat2 : ∀ r, r ∈ (rowsIn t2).flatten → r ∈ (rowsIn t1).flatten := by
    intro r hr
    exact (divides_mem hdiv1 r).2 (List.mem_filter.1 ((divides_mem hdiv r).1 hr)).1
  have hbelow : LabelsBelow labels.length (rowsIn t1).flatten := by
    rw [hlen]
    exact labelsBelow_of_holding hhold
  have hids := rowIds_of_holding hhold hH hS
  have main := fun t l => C56_detection k1 D hdiv1 hdiv r1 r2 c1 c2 t l
  rw [← hread] at main
  have hg : ∀ l, gtCount read l = gtCount (rowsIn t2) l := fun l => (main 0 l).1
  have htp : ∀ t s l, tpTotal t s readR l = tpTotal t s chunks2 l := fun t s l => ((main t l).2.1 s).1
  have hfp : ∀ t s l, fpTotal t s readR l = fpTotal t s chunks2 l := fun t s l => ((main t l).2.1 s).2.1
  have hsize : ∀ l, gtCount (rowsIn t2) l < 2 ^ 64 := by
    intro l
    have hle : gtCount (rowsIn t2) l ≤ gtCount (rowsIn t1) l := by
      rw [C28_groundtruths hc2, C28_groundtruths hc1]
      apply List.Subperm.length_le
      apply List.Nodup.subperm (List.nodup_dedup _)
      intro x hx
      rw [List.mem_dedup, List.mem_map] at hx ⊢
      obtain ⟨r, hr, rfl⟩ := hx
      exact ⟨r, List.mem_filter.2 ⟨hflat2 r (List.mem_filter.1 hr).1, (List.mem_filter.1 hr).2⟩, rfl⟩
    have := gtCount_bound hhold hc1 hH l
    have := hS.gts
    omega
  have c1' : readR.flatten = readRanked D out1 := by
    rw [← c1]
    unfold readRanked
    rw [List.filter_flatten]
    rfl
  have hpl : ∀ {out : List RRow} {ts : List (List Row)}, CacheOk ts → RankedOf ts out → (∀ r ∈ ts.flatten, r ∈ (rowsIn t1).flatten) →
      ∀ r ∈ out, 0 ≤ r.row.pl ∧ r.row.pl < (labels.length : Int) := by
    intro out ts hc h hsub r hr
    obtain ⟨m1, m2, m3⟩ := ranked_pd hc h hr
    exact (hbelow r.row (hsub _ m1)).2 m2
  constructor
  · refine ⟨expectedReport (rowsIn t2) chunks2 labels ious scores, ?_, ?_⟩
    · rw [← expectedReport_congr hg htp hfp (fun t l => (main t l).2.2.1) (fun t l => (main t l).2.2.2.1)]
      apply report_general ho hlne hk
      · intro r hr
        exact hbelow r (hflat r hr)
      · intro l
        rw [hg]
        exact hsize l
      · intro r hr
        rw [c1'] at hr
        exact hpl hc1 r1 (fun _ h => h) r (List.mem_filter.1 hr).1
      · intro t l
        rw [c1', alike_correct (filtered_alike k1 D hdiv1 hdiv r1 r2 t) l, hg]
        exact correctRows_le hc2 r2 t l
      · intro t s l
        rw [htp, hg]
        exact C28_bound hc2 r2 t s l chunks2 c2
      · exact hi
      · exact hs
    · exact C60_report hc2 r2 c2 ho' hlne hk (fun r hr => hbelow r (hflat2 r hr)) hsize hi hs
  · have hkey : ∀ lb ∈ labels, lb.1 < labels.length := by
      intro lb hlb
      rw [hlen]
      exact getElem?_lt (hlab lb hlb)
    refine ⟨_, ?_, C62_report (fun r hr => hids r (hflat2 r hr)) hlne hkey hnames (fun r hr => hbelow r (hflat2 r hr)) hi hs⟩
    rw [C62_report (fun r hr => hids r (hflat r hr)) hlne hkey hnames (fun r hr => hbelow r (hflat r hr)) hi hs]
    congr 1
    have he : ∀ t s, expectedCm read labels t s = expectedCm (rowsIn t2) labels t s := by
      intro t s
      obtain ⟨m5, m6, m7⟩ := C56_detection_confusion (loader_ok hH hS).2 D hdiv1 hdiv t s
      rw [← hread] at m5 m6 m7
      unfold expectedCm
      simp only [m5, m6, m7]
    simp only [he]

/-- Files of one row each, and a filter that keeps the second datum. -/
example : ∃ (t1 t2 : List (List FRow)) (d : Expr) (D : Int → Bool),
    HistoryOk sampleCalls.flatten ∧ SizesOk (Loader.init.addAll sampleCalls) ∧ (Loader.init.addAll sampleCalls).labels ≠ [] ∧
    StoredSorted (Loader.init.addAll sampleCalls).rows t1 ∧ (∀ f ∈ (Loader.init.addAll sampleCalls).rows.flatten, d f = D f.row.datum) ∧
    StoredSorted (filterTables (some d) none none t1) t2 ∧ (∃ out, RankedOf (rowsIn t1) out) ∧ (∃ out, RankedOf (rowsIn t2) out) ∧
    ((loaderRows sampleCalls).filter (fun r => D r.datum)).length = 4 ∧ IsArgsort stableOrder :=
  ⟨_, _, fun f => decide (f.row.datum = 1), fun k => decide (k = 1), sampleCalls_ok.1, sampleCalls_ok.2.2,
    by decide +kernel, storedSorted_file 1 1 [] _ Verif.Cache.WOp.rows (Or.inl rfl), fun _ _ => rfl, storedSorted_mem _,
    ⟨_, (rankedOf_file _ (fun t => t.map (fun x => [x])) (singletons_batching) 1 1).choose_spec.2⟩,
    ⟨_, (rankedOf_file _ (fun t => t.map (fun x => [x])) (singletons_batching) 1 1).choose_spec.2⟩,
    by decide +kernel, stableOrder_ok⟩

end Verif.Detection
