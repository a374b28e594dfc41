import Verif.Detection.CmExampleProps

/-!
# Counts against confusion matrix (`object_detection/evaluator.py` 386-602)

`compute_precision_recall` assigns every prediction to the ground truth of its label that it overlaps most;
`compute_confusion_matrix` assigns greedily by score, without looking at labels and thresholds.
-/

namespace Verif.Detection

open Verif.Cache (sortBy)

/-- In every selected detection each annotation overlaps at most one annotation of the other side. -/
def Isolated (H : History) (keep : Nat → Bool) : Prop :=
  ∀ k x, keep k = true → H[k]? = some x → ∀ g p g' p', g < x.1.gts.length → p < x.1.pds.length → g' < x.1.gts.length →
    p' < x.1.pds.length → EPSILON ≤ x.2 p g → EPSILON ≤ x.2 p' g' → (g = g' ∨ p = p') → g = g' ∧ p = p'

/-- The counted pairs when nothing competes. -/
def counted (t s : Rat) (g p : Int) (r : Row) : Bool :=
  decide (0 ≤ r.gt ∧ 0 ≤ r.pd ∧ r.gl = g ∧ r.pl = p ∧ EPSILON < r.iou ∧ t ≤ r.iou ∧ EPSILON < r.score ∧ s ≤ r.score)

/-- Rows of pairs that share an id are rows of one pair. -/
def NoRivals (rows : List Row) : Prop :=
  ∀ x ∈ rows, ∀ y ∈ rows, 0 ≤ x.gt → 0 ≤ x.pd → 0 ≤ y.gt → 0 ≤ y.pd → (x.gt = y.gt ∨ x.pd = y.pd) → x.gt = y.gt ∧ x.pd = y.pd

theorem matched_noRivals {rows : List Row} (hok : PairsOk rows) (hn : NoRivals rows) {r : Row} (hr : r ∈ rows) (h0 : 0 ≤ r.gt) (h1 : 0 ≤ r.pd) :
    matched rows r = true := by
  rw [C30_matched hok.ids hr]
  obtain ⟨i, hi, rfl⟩ := List.getElem_of_mem hr
  by_cases hg : (greedy [] [] rows)[i]? = some true
  · exact ⟨i, hi, hg, rfl, rfl⟩
  · obtain ⟨j, hj, hjt, hs⟩ := C30_maximal rows i hi ⟨h0, h1⟩ hg
    have hj' : j < rows.length := by omega
    obtain ⟨c1, _⟩ := (C30_greedy rows).2 j hj' |>.1 hjt
    obtain ⟨e1, e2⟩ := hn _ (List.getElem_mem hj') _ (List.getElem_mem hi) c1.1 c1.2 h0 h1 hs
    exact ⟨j, hj', hjt, e1, e2⟩

theorem cmCell_noRivals {rows : List Row} (hok : PairsOk rows) (hn : NoRivals rows) (t s : Rat) (g p : Int) :
    cmCell rows t s g p = distinct Row.gt (rows.filter (counted t s g p)) := by
  rw [cmCell_eq_one]
  have hf : rows.filter (fun r => (decide (r.gl = g) && decide (r.pl = p)) && thresholded rows t s r) = rows.filter (counted t s g p) := by
    apply List.filter_congr
    intro r hr
    rw [Bool.eq_iff_iff]
    unfold counted
    rw [decide_eq_true_eq, Bool.and_eq_true, Bool.and_eq_true, decide_eq_true_eq, decide_eq_true_eq]
    constructor
    · rintro ⟨⟨h1, h2⟩, h3⟩
      obtain ⟨_, i1, i2, _⟩ := thresholded_ids hok hr h3
      unfold thresholded maskScore at h3
      simp only [Bool.and_eq_true, decide_eq_true_eq] at h3
      exact ⟨i1, i2, h1, h2, h3.1.2.1, h3.1.2.2, h3.2.1, h3.2.2⟩
    · rintro ⟨i1, i2, h1, h2, h3, h4, h5, h6⟩
      refine ⟨⟨h1, h2⟩, ?_⟩
      unfold thresholded maskScore
      simp only [Bool.and_eq_true, decide_eq_true_eq]
      exact ⟨⟨matched_noRivals hok hn hr i1 i2, h3, h4⟩, h5, h6⟩
  rw [hf]
  apply distinct_congr
  intro x hx y hy
  unfold counted at hx hy
  rw [List.mem_filter, decide_eq_true_eq] at hx hy
  obtain ⟨hx, x1, x2, x3, x4, _⟩ := hx
  obtain ⟨hy, y1, y2, y3, y4, _⟩ := hy
  constructor
  · intro he
    simp only [List.cons.injEq] at he
    exact he.2.1
  · intro he
    obtain ⟨_, e2⟩ := hn x hx y hy x1 x2 y1 y2 (Or.inl he)
    rw [(hok.gts x hx y hy x1 he).1, he, e2, x3, y3, x4, y4]

theorem cmTotal_noRivals {tables : List (List Row)} (ha : Aligned tables) (hok : PairsOk tables.flatten) (hn : NoRivals tables.flatten)
    (t s : Rat) (g p : Int) : cmTotal tables t s g p = distinct Row.gt (tables.flatten.filter (counted t s g p)) := by
  rw [← distinct_tables ha]
  · unfold cmTotal
    congr 1
    apply List.map_congr_left
    intro tbl htbl
    have hs : ∀ r ∈ tbl, r ∈ tables.flatten := fun r hr => List.mem_flatten.2 ⟨tbl, htbl, hr⟩
    exact cmCell_noRivals (hok.sub hs) (fun x hx y hy => hn x (hs x hx) y (hs y hy)) t s g p
  · intro x hx y hy h1 _ he
    unfold counted at h1
    rw [decide_eq_true_eq] at h1
    exact (hok.gts x hx y hy h1.1 he).1

/-- The full statement of C63: at all thresholds above the epsilon the true positives of a label are the diagonal entry of the
confusion matrix. -/
def DiagonalIsTp : Prop :=
  ∀ (calls : List History) (tables : List (List FRow)), HistoryOk calls.flatten → OneLabel calls.flatten →
    SizesOk (Loader.init.addAll calls) → StoredSorted (Loader.init.addAll calls).rows tables →
    ∀ (out : List RRow), RankedOf (rowsIn tables) out → ∀ (t s : Rat), EPSILON < t → ∀ v : String,
      tpTotal t s [out] ((Loader.init.addAll calls).labels.idxOf v : Nat)
        = cmTotal (rowsIn tables) t s ((Loader.init.addAll calls).labels.idxOf v : Nat) ((Loader.init.addAll calls).labels.idxOf v : Nat)

/-- **C63 (isolated annotations).** If no annotation overlaps two annotations of the other side, then, for every sequence of `add_*`
calls, every division of the cache, all thresholds and all labels, the true positives are the diagonal entry of the confusion
matrix. Missing for the full statement: annotations that compete; there it is false in both directions. -/
theorem C63_isolated_partial {calls : List History} {keep : Nat → Bool} {tables : List (List Row)} (h : Holding calls keep tables)
    (hH : HistoryOk calls.flatten) (h1 : OneLabel calls.flatten) (hS : SizesOk (Loader.init.addAll calls))
    (hI : Isolated calls.flatten keep) {out : List RRow} (hout : RankedOf tables out) (chunks : List (List RRow))
    (hch : chunks.flatten = out) {t : Rat} (ht : EPSILON < t) (s : Rat) (v : String) :
    tpTotal t s chunks ((Loader.init.addAll calls).labels.idxOf v : Nat)
      = cmTotal tables t s ((Loader.init.addAll calls).labels.idxOf v : Nat) ((Loader.init.addAll calls).labels.idxOf v : Nat) := by
  have he0 : (0 : Rat) < EPSILON := by unfold EPSILON; norm_num
  obtain ⟨best, hbest, hall⟩ := C54_true_positives h hH h1 hS hout chunks hch
  obtain ⟨ids, hnd, hids, htp⟩ := hall t (he0.trans ht) s v
  obtain ⟨hp, _⟩ := pairsOk_of_holding h hH h1 hS.gts hS.pds hS.datums
  have hn : NoRivals tables.flatten := by
    intro x hx y hy x1 x2 y1 y2 hxy
    obtain ⟨k, d, g, ga, p, pa, hpo⟩ := pairOf h hH h1 hx x1 x2
    obtain ⟨k', d', g', ga', p', pa', hpo'⟩ := pairOf h hH h1 hy y1 y2
    have hk : k = k' := by
      rcases hxy with e | e
      · rw [hpo.gt, hpo'.gt] at e
        exact ((C34_ids calls.flatten hpo.hk hpo'.hk).1 (getElem?_lt hpo.hg) (getElem?_lt hpo'.hg) (by exact_mod_cast e)).1
      · rw [hpo.pd, hpo'.pd] at e
        exact ((C34_ids calls.flatten hpo.hk hpo'.hk).2 (getElem?_lt hpo.hp) (getElem?_lt hpo'.hp) (by exact_mod_cast e)).1
    subst hk
    have hd : d = d' := Option.some.inj (hpo.hk.symm.trans hpo'.hk)
    subst hd
    obtain ⟨rfl, rfl⟩ := hI k d hpo.hkp hpo.hk g p g' p' (getElem?_lt hpo.hg) (getElem?_lt hpo.hp) (getElem?_lt hpo'.hg)
      (getElem?_lt hpo'.hp) hpo.eps hpo'.eps (by
        rcases hxy with e | e
        · rw [hpo.gt, hpo'.gt] at e
          left; omega
        · rw [hpo.pd, hpo'.pd] at e
          right; omega)
    rw [hpo.gt, hpo'.gt, hpo.pd, hpo'.pd]
    exact ⟨rfl, rfl⟩
  rw [htp, cmTotal_noRivals h.aligned hp hn]
  unfold distinct
  apply List.Perm.length_eq
  rw [List.perm_ext_iff_of_nodup hnd (List.nodup_dedup _)]
  intro z
  rw [hids, List.mem_dedup, List.mem_map]
  constructor
  · rintro ⟨k, x, p, a, g, hkp, hk, ha, hav, hs1, hs2, hb, hti, rfl⟩
    obtain ⟨⟨b, hgb, hlab⟩, heps, _⟩ := (hbest k x p a hkp hk ha).1 g hb
    obtain ⟨r, hr, hpo⟩ := pairRow_mem h hH h1 hkp hk hgb ha heps
    refine ⟨r, List.mem_filter.2 ⟨hr, ?_⟩, hpo.gt⟩
    unfold counted
    rw [decide_eq_true_eq, hpo.gl, hpo.pl, hpo.iou, hpo.score, hlab, hav]
    refine ⟨?_, ?_, rfl, rfl, lt_of_lt_of_le ht hti, hti, hs2, hs1⟩
    · rw [hpo.gt]; omega
    · rw [hpo.pd]; omega
  · rintro ⟨r, hr, rfl⟩
    rw [List.mem_filter] at hr
    obtain ⟨hr, hc⟩ := hr
    unfold counted at hc
    rw [decide_eq_true_eq] at hc
    obtain ⟨c1, c2, c3, c4, c5, c6, c7, c8⟩ := hc
    obtain ⟨k, x, g, ga, p, pa, hpo⟩ := pairOf h hH h1 hr c1 c2
    rw [hpo.gl] at c3
    rw [hpo.pl] at c4
    have hgv : ga.labels.headD "" = v := (idxOf_eq_iff hpo.gmem).1 c3
    have hpv : pa.labels.headD "" = v := (idxOf_eq_iff hpo.pmem).1 c4
    have hlab : ga.labels = pa.labels := by rw [labels_eq hpo.gone hpo.pone, hgv, hpv]
    rw [hpo.score] at c7 c8
    rw [hpo.iou] at c6
    refine ⟨k, x, p, pa, g, hpo.hkp, hpo.hk, hpo.hp, hpv, c8, c7, ?_, c6, hpo.gt⟩
    cases hbp : best k p with
    | none => exact absurd ((hbest k x p pa hpo.hkp hpo.hk hpo.hp).2 hbp g ga hpo.hg hlab) (not_lt.2 hpo.eps)
    | some g' =>
      obtain ⟨⟨b, hb, _⟩, heps, _⟩ := (hbest k x p pa hpo.hkp hpo.hk hpo.hp).1 g' hbp
      obtain ⟨rfl, _⟩ := hI k x hpo.hkp hpo.hk g' p g p (getElem?_lt hb) (getElem?_lt hpo.hp) (getElem?_lt hpo.hg)
        (getElem?_lt hpo.hp) heps hpo.eps (Or.inr rfl)
      rfl

/-- The hypotheses hold for the sample, which has a true positive. -/
example : Isolated sampleCalls.flatten (fun _ => true) ∧ EPSILON < (1 / 2 : Rat) ∧ EPSILON ≤ sampleDet.2 0 0 := by
  refine ⟨?_, by decide +kernel, by decide +kernel⟩
  intro k x _ hk g p g' p' _ _ _ _ h1 h2 _
  have hx : x ∈ sampleCalls.flatten := List.mem_of_getElem? hk
  simp only [sampleCalls, List.flatten_cons, List.flatten_nil, List.append_nil, List.cons_append, List.nil_append, List.mem_cons,
    List.not_mem_nil, or_false] at hx
  have he0 : (0 : Rat) < EPSILON := by unfold EPSILON; norm_num
  rcases hx with rfl | rfl
  · exact absurd h1 (not_le.2 he0)
  · dsimp only at h1 h2
    split at h1
    · split at h2
      · omega
      · exact absurd h2 (not_le.2 he0)
    · exact absurd h1 (not_le.2 he0)

/-- One ground truth; the prediction with the higher score overlaps it slightly, the other one well. -/
def blockedCall : List History :=
  [[(⟨"d", [⟨"g", ["a"], [], ""⟩], [⟨"p0", ["a"], [9 / 10], ""⟩, ⟨"p1", ["a"], [8 / 10], ""⟩], ""⟩,
    fun p _ => if p = 0 then 1 / 10 else 9 / 10)]]

/-- Two ground truths; the second prediction overlaps both, the first one only one. -/
def sharedCall : List History :=
  [[(⟨"d", [⟨"g0", ["a"], [], ""⟩, ⟨"g1", ["a"], [], ""⟩], [⟨"p0", ["a"], [9 / 10], ""⟩, ⟨"p1", ["a"], [8 / 10], ""⟩], ""⟩,
    fun p g => if g = 0 then (if p = 0 then 9 / 10 else 8 / 10) else (if p = 0 then 0 else 7 / 10))]]

theorem blockedCall_rows : (Loader.init.addAll blockedCall).rows.flatten = sortBy fKey (Loader.init.addAll blockedCall).rows.flatten := by
  unfold sortBy
  rw [List.mergeSort_of_pairwise]
  decide +kernel

theorem sharedCall_rows : (Loader.init.addAll sharedCall).rows.flatten = sortBy fKey (Loader.init.addAll sharedCall).rows.flatten := by
  unfold sortBy
  rw [List.mergeSort_of_pairwise]
  decide +kernel

theorem rankTable_sorted_rows {rows : List Row} (h : rows.Pairwise (fun a b => rankKey a ≤ rankKey b)) :
    rankTable rows = List.zipWith RRow.mk (rankPairs rows) (boundaries (rankPairs rows)) := by
  have : sortBy rankKey rows = rows := by
    unfold sortBy
    rw [List.mergeSort_of_pairwise]
    exact h.imp (fun h => by simpa using h)
  unfold rankTable
  rw [this]

theorem blockedCall_ok : HistoryOk blockedCall.flatten ∧ OneLabel blockedCall.flatten ∧ SizesOk (Loader.init.addAll blockedCall) := by
  refine ⟨⟨by simp [blockedCall], by simp [blockedCall], ?_⟩, by unfold OneLabel; simp [blockedCall],
    ⟨by decide +kernel, by decide +kernel, by decide +kernel, by decide +kernel⟩⟩
  intro x hx p g
  simp only [blockedCall, List.flatten_cons, List.flatten_nil, List.append_nil, List.mem_cons, List.not_mem_nil, or_false] at hx
  subst hx
  dsimp only
  split <;> constructor <;> norm_num

theorem sharedCall_ok : HistoryOk sharedCall.flatten ∧ OneLabel sharedCall.flatten ∧ SizesOk (Loader.init.addAll sharedCall) := by
  refine ⟨⟨by simp [sharedCall], by simp [sharedCall], ?_⟩, by unfold OneLabel; simp [sharedCall],
    ⟨by decide +kernel, by decide +kernel, by decide +kernel, by decide +kernel⟩⟩
  intro x hx p g
  simp only [sharedCall, List.flatten_cons, List.flatten_nil, List.append_nil, List.mem_cons, List.not_mem_nil, or_false] at hx
  subst hx
  dsimp only
  split <;> split <;> constructor <;> norm_num

/-- **C63 fails: a true positive that the matrix does not show.** A confident prediction that overlaps the ground truth slightly
takes it away from the one that found it, so that the diagonal is 0 while there is one true positive. -/
theorem C63_blocked_violation : ∃ (tables : List (List FRow)) (out : List RRow),
    StoredSorted (Loader.init.addAll blockedCall).rows tables ∧ RankedOf (rowsIn tables) out ∧
      tpTotal (1 / 2) (1 / 2) [out] 0 = 1 ∧ cmTotal (rowsIn tables) (1 / 2) (1 / 2) 0 0 = 0 := by
  refine ⟨[(Loader.init.addAll blockedCall).rows.flatten], _, ?_, rankedOf_mem _, ?_, ?_⟩
  · have := storedSorted_mem (Loader.init.addAll blockedCall).rows
    rw [← blockedCall_rows] at this
    exact this
  · rw [rankTable_sorted_rows (by decide +kernel)]
    decide +kernel
  · decide +kernel

/-- **C63 fails: a diagonal entry that is no true positive.** A prediction that overlaps two ground truths is moved to the free one
by the matrix, but not by the counts: the diagonal is 2 while there is one true positive. -/
theorem C63_shared_violation : ∃ (tables : List (List FRow)) (out : List RRow),
    StoredSorted (Loader.init.addAll sharedCall).rows tables ∧ RankedOf (rowsIn tables) out ∧
      tpTotal (1 / 2) (1 / 2) [out] 0 = 1 ∧ cmTotal (rowsIn tables) (1 / 2) (1 / 2) 0 0 = 2 := by
  refine ⟨[(Loader.init.addAll sharedCall).rows.flatten], _, ?_, rankedOf_mem _, ?_, ?_⟩
  · have := storedSorted_mem (Loader.init.addAll sharedCall).rows
    rw [← sharedCall_rows] at this
    exact this
  · rw [rankTable_sorted_rows (by decide +kernel)]
    decide +kernel
  · decide +kernel

theorem C63_violation : ¬ DiagonalIsTp := by
  intro h
  obtain ⟨tables, out, hs, hr, h1, h2⟩ := C63_blocked_violation
  obtain ⟨o1, o2, o3⟩ := blockedCall_ok
  have := h blockedCall tables o1 o2 o3 hs out hr (1 / 2) (1 / 2) (by decide +kernel) "a"
  have he : ((Loader.init.addAll blockedCall).labels.idxOf "a" : Nat) = 0 := by decide +kernel
  rw [he] at this
  simp only [Nat.cast_zero] at this
  omega

end Verif.Detection
