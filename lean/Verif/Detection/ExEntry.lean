import Verif.Detection.ExLemmas

/-! # C59: the examples of one datum -/

namespace Verif.Detection

open Verif.Cache (sortBy SortedBy sortBy_sorted)

/-! ## Specification -/

/-- A choice of pairs (ground truth, prediction) of a detection: only overlapping pairs, each annotation at most once, and
every overlapping pair shares an annotation with a chosen pair that is at least as good (higher score, or the same score and
at least the same IoU). -/
structure Greedy (x : Det × (Nat → Nat → Rat)) (G : Nat → Nat → Bool) : Prop where
  range : ∀ g p, G g p = true → g < x.1.gts.length ∧ p < x.1.pds.length ∧ EPSILON ≤ x.2 p g
  one : ∀ g p g' p', G g p = true → G g' p' = true → (g = g' ∨ p = p') → g = g' ∧ p = p'
  best : ∀ g ga p pa, x.1.gts[g]? = some ga → x.1.pds[p]? = some pa → EPSILON ≤ x.2 p g →
    ∃ g' p' pa', G g' p' = true ∧ x.1.pds[p']? = some pa' ∧ (g' = g ∨ p' = p) ∧
      (pa.scores.headD 0 < pa'.scores.headD 0 ∨ (pa.scores.headD 0 = pa'.scores.headD 0 ∧ x.2 p g ≤ x.2 p' g'))

/-- The score of prediction `p` passes. -/
def scorePasses (x : Det × (Nat → Nat → Rat)) (s : Rat) (p : Nat) : Bool :=
  match x.1.pds[p]? with
  | some a => decide (EPSILON < a.scores.headD 0) && decide (s ≤ a.scores.headD 0)
  | none => false

/-- A chosen pair that passes both thresholds. -/
def pairPasses (x : Det × (Nat → Nat → Rat)) (G : Nat → Nat → Bool) (t s : Rat) (g p : Nat) : Bool :=
  G g p && (decide (EPSILON < x.2 p g) && decide (t ≤ x.2 p g)) && scorePasses x s p

/-- Ground truth and prediction have the same labels. -/
def sameLabels (x : Det × (Nat → Nat → Rat)) (g p : Nat) : Bool :=
  decide ((x.1.gts[g]?).map Ann.labels = (x.1.pds[p]?).map Ann.labels)

/-- A true positive. -/
def hit (x : Det × (Nat → Nat → Rat)) (G : Nat → Nat → Bool) (t s : Rat) (g p : Nat) : Bool :=
  pairPasses x G t s g p && sameLabels x g p

/-- What the example of a detection must say: the true positives are the chosen pairs that pass the thresholds and agree in
the label; all other ground truths are false negatives and all other predictions with a passing score false positives, each
listed once and in the order in which they were added. -/
structure Entry (x : Det × (Nat → Nat → Rat)) (G : Nat → Nat → Bool) (t s : Rat) (e : DetExample) : Prop where
  datum : e.datum = some x.1.uid
  iou : e.iou = t
  score : e.score = s
  tp : e.tp = (List.range x.1.gts.length).flatMap (fun g => ((List.range x.1.pds.length).filter (hit x G t s g)).map
    (fun p => ((x.1.gts[g]?).map Ann.uid, (x.1.pds[p]?).map Ann.uid)))
  fn : e.fn = ((List.range x.1.gts.length).filter (fun g => !(List.range x.1.pds.length).any (hit x G t s g))).map
    (fun g => (x.1.gts[g]?).map Ann.uid)
  fp : e.fp = ((List.range x.1.pds.length).filter (fun p => scorePasses x s p &&
    !(List.range x.1.gts.length).any (fun g => hit x G t s g p))).map (fun p => (x.1.pds[p]?).map Ann.uid)

/-! ## A payload of the loader -/

/-- A sorted table with the rows of one detection. -/
structure Payload (L : List String) (x : Det × (Nat → Nat → Rat)) (k g0 p0 : Nat) (tbl : List FRow) : Prop where
  rows : ∀ f, f ∈ tbl ↔ IsRow L x.1 x.2 k g0 p0 f
  sorted : SortedBy fKey tbl
  labels : L.length ≤ 100000
  mem : ∀ f ∈ tbl, (∀ v, f.gtLabel = some v → v ∈ L) ∧ (∀ v, f.pdLabel = some v → v ∈ L)
  owned : Owned (tbl.map FRow.row)
  gtOne : ∀ a ∈ x.1.gts, a.labels.length = 1
  pdOne : ∀ a ∈ x.1.pds, a.labels.length = 1 ∧ a.scores.length = 1

variable {L : List String} {x : Det × (Nat → Nat → Rat)} {k g0 p0 : Nat} {tbl : List FRow}

/-- The chosen pairs. -/
def chosenPairs (tbl : List FRow) (g0 p0 : Nat) (g p : Nat) : Bool :=
  decide ((((g0 + g : Nat) : Int), ((p0 + p : Nat) : Int)) ∈ keptPairs (tbl.map FRow.row))

/-- The row of a pair with its annotations. -/
structure PairIn (L : List String) (x : Det × (Nat → Nat → Rat)) (k g0 p0 : Nat) (r : Row) (g : Nat) (ga : Ann) (p : Nat) (pa : Ann) : Prop where
  hg : x.1.gts[g]? = some ga
  hp : x.1.pds[p]? = some pa
  datum : r.datum = k
  gt : r.gt = ((g0 + g : Nat) : Int)
  pd : r.pd = ((p0 + p : Nat) : Int)
  iou : r.iou = x.2 p g
  eps : EPSILON ≤ x.2 p g
  gl : r.gl = (L.idxOf (ga.labels.headD "") : Nat)
  pl : r.pl = (L.idxOf (pa.labels.headD "") : Nat)
  score : r.score = pa.scores.headD 0
  gmem : ga.labels.headD "" ∈ L
  pmem : pa.labels.headD "" ∈ L

theorem pair_in (P : Payload L x k g0 p0 tbl) {r : Row} (hr : r ∈ tbl.map FRow.row) (h0 : 0 ≤ r.gt) (h0' : 0 ≤ r.pd) :
    ∃ g ga p pa, PairIn L x k g0 p0 r g ga p pa := by
  obtain ⟨f, hf, rfl⟩ := List.mem_map.1 hr
  obtain ⟨l1, l2⟩ := P.mem f hf
  have hf := (P.rows f).1 hf
  rcases hf with ⟨_, _, _, _, rfl⟩ | ⟨_, _, _, _, _, _, _, rfl⟩ | ⟨g, ga, p, pa, glabel, label, score, hg, hp, heps, hgl, hz, rfl⟩
  · simp [gtRow] at h0'
  · simp [pdRow] at h0
  · have hgone := P.gtOne ga (List.mem_of_getElem? hg)
    have hpone := (P.pdOne pa (List.mem_of_getElem? hp)).1
    obtain ⟨rfl, hsc⟩ := zip_head hpone hz
    have : glabel = ga.labels.headD "" := by
      obtain ⟨w, hw⟩ := List.length_eq_one_iff.1 hgone
      rw [hw] at hgl ⊢
      simpa using hgl
    subst this
    exact ⟨g, ga, p, pa, ⟨hg, hp, rfl, rfl, rfl, rfl, heps, rfl, rfl, hsc, l1 _ rfl, l2 _ rfl⟩⟩

theorem pair_mem (P : Payload L x k g0 p0 tbl) {g : Nat} {ga : Ann} {p : Nat} {pa : Ann} (hg : x.1.gts[g]? = some ga)
    (hp : x.1.pds[p]? = some pa) (heps : EPSILON ≤ x.2 p g) : ∃ f ∈ tbl, PairIn L x k g0 p0 f.row g ga p pa ∧
      f.gtUid = some ga.uid ∧ f.pdUid = some pa.uid := by
  have hgone := P.gtOne ga (List.mem_of_getElem? hg)
  obtain ⟨hpone, hs⟩ := P.pdOne pa (List.mem_of_getElem? hp)
  have hz : (pa.labels.headD "", pa.scores.headD 0) ∈ pa.labels.zip pa.scores := by
    obtain ⟨w, hw⟩ := List.length_eq_one_iff.1 hpone
    obtain ⟨b, hb⟩ := List.length_eq_one_iff.1 hs
    rw [hw, hb]
    simp
  have hgl : ga.labels.headD "" ∈ ga.labels := by
    obtain ⟨w, hw⟩ := List.length_eq_one_iff.1 hgone
    rw [hw]
    simp
  have hf : IsRow L x.1 x.2 k g0 p0 _ := Or.inr (Or.inr ⟨g, ga, p, pa, _, _, _, hg, hp, heps, hgl, hz, rfl⟩)
  have hm := (P.rows _).2 hf
  obtain ⟨l1, l2⟩ := P.mem _ hm
  exact ⟨_, hm, ⟨hg, hp, rfl, rfl, rfl, rfl, heps, rfl, rfl, rfl, l1 _ rfl, l2 _ rfl⟩, rfl, rfl⟩

theorem kept_row {g p : Int} (h : (g, p) ∈ keptPairs (tbl.map FRow.row)) : ∃ r ∈ tbl.map FRow.row, r.gt = g ∧ r.pd = p := by
  obtain ⟨i, hi, _, h1, h2⟩ := (mem_keptPairs _ _ _).1 h
  exact ⟨_, List.getElem_mem hi, h1, h2⟩

theorem chosen_pair (P : Payload L x k g0 p0 tbl) {g p : Nat} (h : chosenPairs tbl g0 p0 g p = true) :
    ∃ ga pa, ∃ r ∈ tbl.map FRow.row, PairIn L x k g0 p0 r g ga p pa := by
  unfold chosenPairs at h
  rw [decide_eq_true_eq] at h
  obtain ⟨r, hr, h1, h2⟩ := kept_row h
  obtain ⟨g', ga, p', pa, hpo⟩ := pair_in P hr (by omega) (by omega)
  have e1 : g' = g := by have := hpo.gt; omega
  have e2 : p' = p := by have := hpo.pd; omega
  subst e1; subst e2
  exact ⟨ga, pa, r, hr, hpo⟩

/-- The loop chooses greedily. -/
theorem chosen_greedy (P : Payload L x k g0 p0 tbl) : Greedy x (chosenPairs tbl g0 p0) := by
  refine ⟨?_, ?_, ?_⟩
  · intro g p h
    obtain ⟨ga, pa, r, _, hpo⟩ := chosen_pair P h
    exact ⟨getElem?_lt hpo.hg, getElem?_lt hpo.hp, hpo.eps⟩
  · intro g p g' p' h h' hs
    unfold chosenPairs at h h'
    rw [decide_eq_true_eq] at h h'
    have := C30_one_to_one _ h h' (by rcases hs with rfl | rfl; exacts [Or.inl rfl, Or.inr rfl])
    omega
  · intro g ga p pa hg hp heps
    obtain ⟨f, hf, hpo, _⟩ := pair_mem P hg hp heps
    obtain ⟨i, hi, he⟩ := List.getElem_of_mem (List.mem_map_of_mem (f := FRow.row) hf)
    have hc : 0 ≤ (tbl.map FRow.row)[i].gt ∧ 0 ≤ (tbl.map FRow.row)[i].pd := by
      rw [he, hpo.gt, hpo.pd]
      omega
    by_cases hm : (greedy [] [] (tbl.map FRow.row))[i]? = some true
    · refine ⟨g, p, pa, ?_, hp, Or.inl rfl, Or.inr ⟨rfl, le_refl _⟩⟩
      unfold chosenPairs
      rw [decide_eq_true_eq, mem_keptPairs]
      exact ⟨i, hi, hm, by rw [he, hpo.gt], by rw [he, hpo.pd]⟩
    · obtain ⟨j, hj, hjt, hs⟩ := C30_maximal _ i hi hc hm
      have hjl : j < (tbl.map FRow.row).length := by omega
      have hjc := (((C30_greedy (tbl.map FRow.row)).2 j hjl).1 hjt).1
      obtain ⟨g', ga', p', pa', hpo'⟩ := pair_in P (List.getElem_mem hjl) hjc.1 hjc.2
      refine ⟨g', p', pa', ?_, hpo'.hp, ?_, ?_⟩
      · unfold chosenPairs
        rw [decide_eq_true_eq, mem_keptPairs]
        exact ⟨j, hjl, hjt, hpo'.gt, hpo'.pd⟩
      · rw [he, hpo.gt, hpo.pd] at hs
        have e1 := hpo'.gt
        have e2 := hpo'.pd
        rcases hs with hs | hs
        · left; omega
        · right; omega
      · have hso := P.sorted
        unfold SortedBy at hso
        have h2 : (tbl.map FRow.row).Pairwise (fun a b => rankKey a ≤ rankKey b) := by
          rw [List.pairwise_map]
          exact hso
        have h3 := List.pairwise_iff_getElem.1 h2 j i hjl hi hj
        rw [he, rankKey_le, hpo.score, hpo.iou, hpo'.score, hpo'.iou] at h3
        rcases h3 with h3 | h3
        · exact Or.inl h3
        · exact Or.inr ⟨h3.1, h3.2⟩

/-! ## The masks -/

theorem gtPd_label (P : Payload L x k g0 p0 tbl) {r : Row} {g : Nat} {ga : Ann} {p : Nat} {pa : Ann} (h : PairIn L x k g0 p0 r g ga p pa) :
    gtPdMatch r = sameLabels x g p := by
  have h1 : (decide (0 ≤ r.gt) && decide (0 ≤ r.pd)) = true := by
    rw [h.gt, h.pd]
    simp only [Bool.and_eq_true, decide_eq_true_eq]
    omega
  have h2 := idxOf_mem_lt h.pmem
  have h3 : r.pl < 100000 := by
    rw [h.pl]
    have := P.labels
    omega
  unfold gtPdMatch labelMatch sameLabels
  rw [h1, Bool.true_and, Verif.Classification.isclose_ids (by rw [h.pl]; omega) h3, h.hg, h.hp, h.gl, h.pl]
  apply decide_eq_decide.2
  rw [idxOf_eq_iff h.gmem]
  simp only [Option.map_some, Option.some.injEq]
  exact (labels_eq (P.gtOne ga (List.mem_of_getElem? h.hg)) (P.pdOne pa (List.mem_of_getElem? h.hp)).1).symm

theorem score_passes {r : Row} {p : Nat} {pa : Ann} (hp : x.1.pds[p]? = some pa) (hs : r.score = pa.scores.headD 0) (s : Rat) :
    maskScore s r = scorePasses x s p := by
  unfold maskScore scorePasses
  rw [hp, hs]

theorem thr_pair (P : Payload L x k g0 p0 tbl) {r : Row} (hr : r ∈ tbl.map FRow.row) {g : Nat} {ga : Ann} {p : Nat} {pa : Ann}
    (h : PairIn L x k g0 p0 r g ga p pa) (t s : Rat) :
    thresholded (tbl.map FRow.row) t s r = pairPasses x (chosenPairs tbl g0 p0) t s g p := by
  unfold thresholded pairPasses
  rw [score_passes h.hp h.score, h.iou]
  congr 2
  unfold matched chosenPairs
  rw [Bool.eq_iff_iff, decide_eq_true_eq, C31_isin _ _ ⟨(P.owned.ids r hr).1, (P.owned.ids r hr).2.1⟩ (keptPairs_ok P.owned.ids), h.gt, h.pd]

theorem thr_in (P : Payload L x k g0 p0 tbl) {r : Row} (hr : r ∈ tbl.map FRow.row) {t s : Rat}
    (h : thresholded (tbl.map FRow.row) t s r = true) : ∃ g ga p pa, PairIn L x k g0 p0 r g ga p pa := by
  have hk := thresholded_kept P.owned hr h
  exact pair_in P hr hk.2.1.1 hk.2.2.1

theorem passes_row (P : Payload L x k g0 p0 tbl) {t s : Rat} {g p : Nat} (h : pairPasses x (chosenPairs tbl g0 p0) t s g p = true) :
    ∃ ga pa, ∃ r ∈ tbl.map FRow.row, PairIn L x k g0 p0 r g ga p pa ∧ thresholded (tbl.map FRow.row) t s r = true := by
  have hG : chosenPairs tbl g0 p0 g p = true := by
    unfold pairPasses at h
    simp only [Bool.and_eq_true] at h
    exact h.1.1
  obtain ⟨ga, pa, r, hr, hp⟩ := chosen_pair P hG
  exact ⟨ga, pa, r, hr, hp, by rw [thr_pair P hr hp, h]⟩

theorem passes_chosen {G : Nat → Nat → Bool} {t s : Rat} {g p : Nat} (h : pairPasses x G t s g p = true) :
    G g p = true ∧ scorePasses x s p = true := by
  unfold pairPasses at h
  simp only [Bool.and_eq_true] at h
  exact ⟨h.1.1, h.2⟩

/-! ## Rows of annotations -/

theorem gt_in (P : Payload L x k g0 p0 tbl) {f : FRow} (hf : f ∈ tbl) (h0 : 0 ≤ f.row.gt) :
    ∃ g ga, x.1.gts[g]? = some ga ∧ f.row.gt = ((g0 + g : Nat) : Int) ∧ f.gtUid = some ga.uid ∧
      f.row.gl = (L.idxOf (ga.labels.headD "") : Nat) ∧ ga.labels.headD "" ∈ L := by
  have hm := P.mem f hf
  rcases (P.rows f).1 hf with ⟨g, a, hg, _, rfl⟩ | ⟨_, _, _, _, _, _, _, rfl⟩ | ⟨g, ga, p, pa, glabel, label, score, hg, hp, heps, hgl, hz, rfl⟩
  · exact ⟨g, a, hg, rfl, rfl, rfl, hm.1 _ rfl⟩
  · simp [pdRow] at h0
  · refine ⟨g, ga, hg, rfl, rfl, ?_, ?_⟩
    · obtain ⟨w, hw⟩ := List.length_eq_one_iff.1 (P.gtOne ga (List.mem_of_getElem? hg))
      rw [hw] at hgl ⊢
      simp only [List.mem_singleton] at hgl
      subst hgl
      rfl
    · have := hm.1 _ rfl
      obtain ⟨w, hw⟩ := List.length_eq_one_iff.1 (P.gtOne ga (List.mem_of_getElem? hg))
      rw [hw] at hgl ⊢
      simp only [List.mem_singleton] at hgl
      subst hgl
      exact this

theorem pd_in (P : Payload L x k g0 p0 tbl) {f : FRow} (hf : f ∈ tbl) (h0 : 0 ≤ f.row.pd) :
    ∃ p pa, x.1.pds[p]? = some pa ∧ f.row.pd = ((p0 + p : Nat) : Int) ∧ f.pdUid = some pa.uid ∧
      f.row.pl = (L.idxOf (pa.labels.headD "") : Nat) ∧ f.row.score = pa.scores.headD 0 ∧ pa.labels.headD "" ∈ L := by
  have hm := P.mem f hf
  rcases (P.rows f).1 hf with ⟨g, a, hg, _, rfl⟩ | ⟨p, a, label, score, hp, hz, _, rfl⟩ | ⟨g, ga, p, pa, glabel, label, score, hg, hp, heps, hgl, hz, rfl⟩
  · simp [gtRow] at h0
  · obtain ⟨rfl, rfl⟩ := zip_head (P.pdOne a (List.mem_of_getElem? hp)).1 hz
    exact ⟨p, a, hp, rfl, rfl, rfl, rfl, hm.2 _ rfl⟩
  · obtain ⟨rfl, rfl⟩ := zip_head (P.pdOne pa (List.mem_of_getElem? hp)).1 hz
    exact ⟨p, pa, hp, rfl, rfl, rfl, rfl, hm.2 _ rfl⟩

theorem row_datum (P : Payload L x k g0 p0 tbl) {f : FRow} (hf : f ∈ tbl) : f.row.datum = k ∧ f.datumUid = x.1.uid := by
  rcases (P.rows f).1 hf with ⟨_, _, _, _, rfl⟩ | ⟨_, _, _, _, _, _, _, rfl⟩ | ⟨_, _, _, _, _, _, _, _, _, _, _, _, rfl⟩ <;> exact ⟨rfl, rfl⟩

theorem gt_row (P : Payload L x k g0 p0 tbl) {g : Nat} {ga : Ann} (hg : x.1.gts[g]? = some ga) :
    ∃ f ∈ tbl, f.row.gt = ((g0 + g : Nat) : Int) := by
  by_cases h : GtAlone x.1 x.2 g
  · exact ⟨_, (P.rows _).2 (Or.inl ⟨g, ga, hg, h, rfl⟩), rfl⟩
  · have : ∃ p pa, x.1.pds[p]? = some pa ∧ EPSILON ≤ x.2 p g := by
      by_contra hcon
      refine h ?_
      intro p hp
      by_contra hc
      exact hcon ⟨p, _, List.getElem?_eq_getElem hp, not_lt.1 hc⟩
    obtain ⟨p, pa, hp, he⟩ := this
    obtain ⟨f, hf, hpo, _⟩ := pair_mem P hg hp he
    exact ⟨f, hf, hpo.gt⟩

theorem pd_row (P : Payload L x k g0 p0 tbl) {p : Nat} {pa : Ann} (hp : x.1.pds[p]? = some pa) :
    ∃ f ∈ tbl, f.row.pd = ((p0 + p : Nat) : Int) := by
  by_cases h : PdAlone x.1 x.2 p
  · obtain ⟨hpone, hs⟩ := P.pdOne pa (List.mem_of_getElem? hp)
    have hz : (pa.labels.headD "", pa.scores.headD 0) ∈ pa.labels.zip pa.scores := by
      obtain ⟨w, hw⟩ := List.length_eq_one_iff.1 hpone
      obtain ⟨b, hb⟩ := List.length_eq_one_iff.1 hs
      rw [hw, hb]
      simp
    exact ⟨_, (P.rows _).2 (Or.inr (Or.inl ⟨p, pa, _, _, hp, hz, h, rfl⟩)), rfl⟩
  · have : ∃ g ga, x.1.gts[g]? = some ga ∧ EPSILON ≤ x.2 p g := by
      by_contra hcon
      refine h ?_
      intro g hg
      by_contra hc
      exact hcon ⟨g, _, List.getElem?_eq_getElem hg, not_lt.1 hc⟩
    obtain ⟨g, ga, hg, he⟩ := this
    obtain ⟨f, hf, hpo, _⟩ := pair_mem P hg hp he
    exact ⟨f, hf, hpo.pd⟩

/-! ## Texts -/

theorem lookup_datum (P : Payload L x k g0 p0 tbl) (hne : tbl ≠ []) : (datumMap tbl).lookup (k : Int) = some (some x.1.uid) := by
  obtain ⟨f, tl, rfl⟩ := List.exists_cons_of_ne_nil hne
  have h := row_datum P (List.mem_cons_self (a := f) (l := tl))
  have := lookup_row (col := Row.datum) (uid := fun f => some f.datumUid) (List.mem_cons_self (a := f) (l := tl)) (by rw [h.1]; omega)
    (fun f' hf' _ => by rw [(row_datum P hf').2, h.2])
  unfold datumMap
  rw [← h.1, this, h.2]

theorem lookup_gt (P : Payload L x k g0 p0 tbl) {g : Nat} {ga : Ann} (hg : x.1.gts[g]? = some ga) :
    (gtMap tbl).lookup ((g0 + g : Nat) : Int) = some (some ga.uid) := by
  obtain ⟨f, hf, he⟩ := gt_row P hg
  have huid : ∀ f' ∈ tbl, f'.row.gt = f.row.gt → f'.gtUid = some ga.uid := by
    intro f' hf' h
    obtain ⟨g', ga', hg', e', u', _⟩ := gt_in P hf' (by omega)
    have : g' = g := by omega
    subst this
    rw [hg, Option.some.injEq] at hg'
    rw [u', hg']
  unfold gtMap
  have h0 : 0 ≤ f.row.gt := by omega
  rw [← he, lookup_row (col := Row.gt) (uid := FRow.gtUid) hf h0 (fun f' hf' h => by rw [huid f' hf' h, huid f hf rfl]), huid f hf rfl]

theorem lookup_pd (P : Payload L x k g0 p0 tbl) {p : Nat} {pa : Ann} (hp : x.1.pds[p]? = some pa) :
    (pdMap tbl).lookup ((p0 + p : Nat) : Int) = some (some pa.uid) := by
  obtain ⟨f, hf, he⟩ := pd_row P hp
  have huid : ∀ f' ∈ tbl, f'.row.pd = f.row.pd → f'.pdUid = some pa.uid := by
    intro f' hf' h
    obtain ⟨p', pa', hp', e', u', _⟩ := pd_in P hf' (by omega)
    have : p' = p := by omega
    subst this
    rw [hp, Option.some.injEq] at hp'
    rw [u', hp']
  unfold pdMap
  have h0 : 0 ≤ f.row.pd := by omega
  rw [← he, lookup_row (col := Row.pd) (uid := FRow.pdUid) hf h0 (fun f' hf' h => by rw [huid f' hf' h, huid f hf rfl]), huid f hf rfl]

/-! ## The lists -/

/-- The label id of a ground truth. -/
def gtLab (L : List String) (x : Det × (Nat → Nat → Rat)) (g : Nat) : Int :=
  (L.idxOf (((x.1.gts[g]?).map (fun a => a.labels.headD "")).getD "") : Nat)

/-- The label id of a prediction. -/
def pdLab (L : List String) (x : Det × (Nat → Nat → Rat)) (p : Nat) : Int :=
  (L.idxOf (((x.1.pds[p]?).map (fun a => a.labels.headD "")).getD "") : Nat)

/-- The pairs with a property, in order. -/
def pairsWith (x : Det × (Nat → Nat → Rat)) (Q : Nat → Nat → Bool) : List (Nat × Nat) :=
  (List.range x.1.gts.length).flatMap (fun g => ((List.range x.1.pds.length).filter (Q g)).map (fun p => (g, p)))

theorem mem_pairsWith {Q : Nat → Nat → Bool} {g p : Nat} :
    (g, p) ∈ pairsWith x Q ↔ (g < x.1.gts.length ∧ p < x.1.pds.length) ∧ Q g p = true := by
  unfold pairsWith
  simp only [List.mem_flatMap, List.mem_range, List.mem_map, List.mem_filter, Prod.mk.injEq]
  constructor
  · rintro ⟨g', hg', p', ⟨hp', hQ⟩, rfl, rfl⟩
    exact ⟨⟨hg', hp'⟩, hQ⟩
  · rintro ⟨⟨h1, h2⟩, h3⟩
    exact ⟨g, h1, p, ⟨h2, h3⟩, rfl, rfl⟩

theorem pairsWith_sorted (Q : Nat → Nat → Bool) : (pairsWith x Q).Pairwise (fun a b => a.1 < b.1 ∨ (a.1 = b.1 ∧ a.2 < b.2)) := by
  unfold pairsWith
  rw [List.pairwise_flatMap]
  constructor
  · intro g _
    rw [List.pairwise_map]
    exact (List.pairwise_lt_range.filter _).imp (fun h => Or.inr ⟨rfl, h⟩)
  · refine List.pairwise_lt_range.imp ?_
    intro a b hab u hu v hv
    obtain ⟨p, _, rfl⟩ := List.mem_map.1 hu
    obtain ⟨q, _, rfl⟩ := List.mem_map.1 hv
    exact Or.inl hab

theorem map_mapM {α β γ : Type} (h : α → β) (f : β → Option γ) (l : List α) : (l.map h).mapM f = l.mapM (fun a => f (h a)) := by
  induction l with
  | nil => rfl
  | cons a l ih => rw [List.map_cons, List.mapM_cons, List.mapM_cons, ih]

theorem rows_datum (P : Payload L x k g0 p0 tbl) {r : Row} (hr : r ∈ tbl.map FRow.row) : r.datum = (k : Int) := by
  obtain ⟨f, hf, rfl⟩ := List.mem_map.1 hr
  exact (row_datum P hf).1

theorem labs {r : Row} {g : Nat} {ga : Ann} {p : Nat} {pa : Ann} (h : PairIn L x k g0 p0 r g ga p pa) :
    r.gl = gtLab L x g ∧ r.pl = pdLab L x p := by
  unfold gtLab pdLab
  rw [h.hg, h.hp, h.gl, h.pl]
  exact ⟨rfl, rfl⟩

/-- The rows of the chosen pairs with a property of their thresholds and labels. -/
theorem pair_rows (P : Payload L x k g0 p0 tbl) (t s : Rat) (B : Row → Bool) (Q : Nat → Nat → Bool)
    (hB : ∀ r ∈ tbl.map FRow.row, ∀ g ga p pa, PairIn L x k g0 p0 r g ga p pa → B r = Q g p) :
    uniqueRows (((tbl.map FRow.row).filter (fun r => (thresholded (tbl.map FRow.row) t s r && B r) && decide (r.datum = (k : Int)))).map
      (fun r => [r.datum, r.gt, r.pd, r.gl, r.pl]))
    = (pairsWith x (fun g p => pairPasses x (chosenPairs tbl g0 p0) t s g p && Q g p)).map
      (fun y => [(k : Int), ((g0 + y.1 : Nat) : Int), ((p0 + y.2 : Nat) : Int), gtLab L x y.1, pdLab L x y.2]) := by
  apply uniqueRows_eq
  · rw [List.pairwise_map]
    refine (pairsWith_sorted _).imp ?_
    intro a b hab
    rw [List.cons_lt_cons_iff, List.cons_lt_cons_iff, List.cons_lt_cons_iff]
    rcases hab with h | ⟨h, h'⟩
    · exact Or.inr ⟨rfl, Or.inl (by omega)⟩
    · exact Or.inr ⟨rfl, Or.inr ⟨by rw [h], Or.inl (by omega)⟩⟩
  · intro key
    simp only [List.mem_map, List.mem_filter, Bool.and_eq_true, decide_eq_true_eq]
    constructor
    · rintro ⟨⟨g, p⟩, hm, rfl⟩
      rw [mem_pairsWith, Bool.and_eq_true] at hm
      obtain ⟨ga, pa, r, hr, hp, ht⟩ := passes_row P hm.2.1
      refine ⟨r, ⟨List.mem_map.1 hr, ⟨ht, by rw [hB r hr _ _ _ _ hp, hm.2.2]⟩, hp.datum⟩, ?_⟩
      rw [hp.datum, hp.gt, hp.pd, (labs hp).1, (labs hp).2]
    · rintro ⟨r, ⟨hr, ⟨ht, hb⟩, hd⟩, rfl⟩
      have hr := List.mem_map.2 hr
      obtain ⟨g, ga, p, pa, hp⟩ := thr_in P hr ht
      refine ⟨(g, p), ?_, ?_⟩
      · rw [mem_pairsWith, Bool.and_eq_true, ← thr_pair P hr hp, ← hB r hr _ _ _ _ hp]
        exact ⟨⟨getElem?_lt hp.hg, getElem?_lt hp.hp⟩, ht, hb⟩
      · dsimp only
        rw [hp.datum, hp.gt, hp.pd, (labs hp).1, (labs hp).2]

/-- No thresholded pair uses the ground truth. -/
theorem fn_iff (P : Payload L x k g0 p0 tbl) {t s : Rat} {r : Row} (hr : r ∈ tbl.map FRow.row) {g : Nat} (hg : r.gt = ((g0 + g : Nat) : Int)) :
    pairFn (tbl.map FRow.row) t s r = true ↔ ¬ ∃ p, pairPasses x (chosenPairs tbl g0 p0) t s g p = true := by
  rw [pairFn_spec P.owned t s hr]
  constructor
  · rintro ⟨h1, _⟩ ⟨p, hp⟩
    obtain ⟨ga, pa, r', hr', hp', ht⟩ := passes_row P hp
    exact h1 ⟨r', hr', ht, by rw [rows_datum P hr', rows_datum P hr], by rw [hp'.gt, hg]⟩
  · intro h
    refine ⟨?_, by omega⟩
    rintro ⟨r', hr', ht, _, he⟩
    obtain ⟨g', ga, p, pa, hp⟩ := thr_in P hr' ht
    have : g' = g := by have := hp.gt; omega
    subst this
    exact h ⟨p, by rw [← thr_pair P hr' hp, ht]⟩

/-- No thresholded pair uses the prediction. -/
theorem fp_iff (P : Payload L x k g0 p0 tbl) {t s : Rat} {r : Row} (hr : r ∈ tbl.map FRow.row) {p : Nat} (hp : r.pd = ((p0 + p : Nat) : Int)) :
    pairFp (tbl.map FRow.row) t s r = true ↔
      (¬ ∃ g, pairPasses x (chosenPairs tbl g0 p0) t s g p = true) ∧ maskScore s r = true := by
  rw [pairFp_spec P.owned t s hr]
  constructor
  · rintro ⟨⟨h1, _⟩, h2⟩
    refine ⟨?_, h2⟩
    rintro ⟨g, hg⟩
    obtain ⟨ga, pa, r', hr', hp', ht⟩ := passes_row P hg
    exact h1 ⟨r', hr', ht, by rw [rows_datum P hr', rows_datum P hr], by rw [hp'.pd, hp]⟩
  · rintro ⟨h, h2⟩
    refine ⟨⟨?_, by omega⟩, h2⟩
    rintro ⟨r', hr', ht, _, he⟩
    obtain ⟨g, ga, p', pa, hp'⟩ := thr_in P hr' ht
    have : p' = p := by have := hp'.pd; omega
    subst this
    exact h ⟨g, by rw [← thr_pair P hr' hp', ht]⟩

/-- The rows that name ground truths. -/
theorem gt_rows (P : Payload L x k g0 p0 tbl) (M : Row → Bool) (Q : Nat → Bool)
    (hM : ∀ r ∈ tbl.map FRow.row, M r = true → 0 ≤ r.gt)
    (h1 : ∀ r ∈ tbl.map FRow.row, ∀ g, r.gt = ((g0 + g : Nat) : Int) → M r = true → Q g = true)
    (h2 : ∀ g, g < x.1.gts.length → Q g = true → ∃ r ∈ tbl.map FRow.row, r.gt = ((g0 + g : Nat) : Int) ∧ M r = true) :
    uniqueRows (((tbl.map FRow.row).filter (fun r => M r && decide (r.datum = (k : Int)))).map (fun r => [r.datum, r.gt, r.gl]))
    = ((List.range x.1.gts.length).filter Q).map (fun g => [(k : Int), ((g0 + g : Nat) : Int), gtLab L x g]) := by
  have hlab : ∀ r ∈ tbl.map FRow.row, ∀ g, r.gt = ((g0 + g : Nat) : Int) → r.gl = gtLab L x g ∧ g < x.1.gts.length := by
    intro r hr g he
    obtain ⟨f, hf, rfl⟩ := List.mem_map.1 hr
    obtain ⟨g', ga, hg', e', _, e2, _⟩ := gt_in P hf (by omega)
    have : g' = g := by omega
    subst this
    refine ⟨?_, getElem?_lt hg'⟩
    unfold gtLab
    rw [hg', e2]
    rfl
  apply uniqueRows_eq
  · rw [List.pairwise_map]
    refine (List.pairwise_lt_range.filter _).imp ?_
    intro a b hab
    rw [List.cons_lt_cons_iff, List.cons_lt_cons_iff]
    exact Or.inr ⟨rfl, Or.inl (by omega)⟩
  · intro key
    simp only [List.mem_map, List.mem_filter, Bool.and_eq_true, decide_eq_true_eq, List.mem_range]
    constructor
    · rintro ⟨g, ⟨hg, hQ⟩, rfl⟩
      obtain ⟨r, hr, he, hm⟩ := h2 g hg hQ
      refine ⟨r, ⟨List.mem_map.1 hr, hm, rows_datum P hr⟩, ?_⟩
      rw [rows_datum P hr, he, (hlab r hr g he).1]
    · rintro ⟨r, ⟨hr, hm, hd⟩, rfl⟩
      have hr := List.mem_map.2 hr
      obtain ⟨f, hf, rfl⟩ := List.mem_map.1 hr
      obtain ⟨g, ga, hg, e, _⟩ := gt_in P hf (hM _ hr hm)
      refine ⟨g, ⟨getElem?_lt hg, h1 _ hr g e hm⟩, ?_⟩
      rw [hd, e, (hlab _ hr g e).1]

/-- The rows that name predictions. -/
theorem pd_rows (P : Payload L x k g0 p0 tbl) (M : Row → Bool) (Q : Nat → Bool)
    (hM : ∀ r ∈ tbl.map FRow.row, M r = true → 0 ≤ r.pd)
    (h1 : ∀ r ∈ tbl.map FRow.row, ∀ p, r.pd = ((p0 + p : Nat) : Int) → M r = true → Q p = true)
    (h2 : ∀ p, p < x.1.pds.length → Q p = true → ∃ r ∈ tbl.map FRow.row, r.pd = ((p0 + p : Nat) : Int) ∧ M r = true) :
    uniqueRows (((tbl.map FRow.row).filter (fun r => M r && decide (r.datum = (k : Int)))).map (fun r => [r.datum, r.pd, r.pl]))
    = ((List.range x.1.pds.length).filter Q).map (fun p => [(k : Int), ((p0 + p : Nat) : Int), pdLab L x p]) := by
  have hlab : ∀ r ∈ tbl.map FRow.row, ∀ p, r.pd = ((p0 + p : Nat) : Int) → r.pl = pdLab L x p ∧ p < x.1.pds.length := by
    intro r hr p he
    obtain ⟨f, hf, rfl⟩ := List.mem_map.1 hr
    obtain ⟨p', pa, hp', e', _, e2, _⟩ := pd_in P hf (by omega)
    have : p' = p := by omega
    subst this
    refine ⟨?_, getElem?_lt hp'⟩
    unfold pdLab
    rw [hp', e2]
    rfl
  apply uniqueRows_eq
  · rw [List.pairwise_map]
    refine (List.pairwise_lt_range.filter _).imp ?_
    intro a b hab
    rw [List.cons_lt_cons_iff, List.cons_lt_cons_iff]
    exact Or.inr ⟨rfl, Or.inl (by omega)⟩
  · intro key
    simp only [List.mem_map, List.mem_filter, Bool.and_eq_true, decide_eq_true_eq, List.mem_range]
    constructor
    · rintro ⟨g, ⟨hg, hQ⟩, rfl⟩
      obtain ⟨r, hr, he, hm⟩ := h2 g hg hQ
      refine ⟨r, ⟨List.mem_map.1 hr, hm, rows_datum P hr⟩, ?_⟩
      rw [rows_datum P hr, he, (hlab r hr g he).1]
    · rintro ⟨r, ⟨hr, hm, hd⟩, rfl⟩
      have hr := List.mem_map.2 hr
      obtain ⟨f, hf, rfl⟩ := List.mem_map.1 hr
      obtain ⟨g, ga, hg, e, _⟩ := pd_in P hf (hM _ hr hm)
      refine ⟨g, ⟨getElem?_lt hg, h1 _ hr g e hm⟩, ?_⟩
      rw [hd, e, (hlab _ hr g e).1]

/-- A ground truth has at most one passing pair. -/
theorem passes_one {G : Nat → Nat → Bool} (hG : Greedy x G) {t s : Rat} {g p g' p' : Nat} (h : pairPasses x G t s g p = true)
    (h' : pairPasses x G t s g' p' = true) (hs : g = g' ∨ p = p') : g = g' ∧ p = p' :=
  hG.one g p g' p' (passes_chosen h).1 (passes_chosen h').1 hs

/-- **C59 (one datum).** -/
theorem exampleOf_entry (P : Payload L x k g0 p0 tbl) (hne : tbl ≠ []) (t s : Rat) :
    ∃ e, exampleOf tbl t s k = some e ∧ Entry x (chosenPairs tbl g0 p0) t s e := by
  have hG := chosen_greedy P
  have hmis : ∀ r ∈ tbl.map FRow.row, pairMisclf (tbl.map FRow.row) t s r = true →
      ∃ g ga p pa, PairIn L x k g0 p0 r g ga p pa ∧ pairPasses x (chosenPairs tbl g0 p0) t s g p = true ∧ sameLabels x g p = false := by
    intro r hr h
    unfold pairMisclf at h
    rw [Bool.and_eq_true, Bool.not_eq_true'] at h
    obtain ⟨g, ga, p, pa, hp⟩ := thr_in P hr h.1
    exact ⟨g, ga, p, pa, hp, by rw [← thr_pair P hr hp, h.1], by rw [← gtPd_label P hp, h.2]⟩
  have hmis' : ∀ g p, pairPasses x (chosenPairs tbl g0 p0) t s g p = true → sameLabels x g p = false →
      ∃ ga pa, ∃ r ∈ tbl.map FRow.row, PairIn L x k g0 p0 r g ga p pa ∧ pairMisclf (tbl.map FRow.row) t s r = true := by
    intro g p h h'
    obtain ⟨ga, pa, r, hr, hp, ht⟩ := passes_row P h
    refine ⟨ga, pa, r, hr, hp, ?_⟩
    unfold pairMisclf
    rw [ht, gtPd_label P hp, h']
    rfl
  have htp := pair_rows P t s gtPdMatch (sameLabels x) (fun r _ g ga p pa hp => gtPd_label P hp)
  have hfn := gt_rows P (fun r => pairMisclf (tbl.map FRow.row) t s r || pairFn (tbl.map FRow.row) t s r)
    (fun g => !(List.range x.1.pds.length).any (hit x (chosenPairs tbl g0 p0) t s g))
    (by
      intro r hr h
      rw [Bool.or_eq_true] at h
      rcases h with h | h
      · obtain ⟨g, _, p, _, hp, _⟩ := hmis r hr h
        have := hp.gt
        omega
      · exact ((pairFn_spec P.owned t s hr).1 h).2)
    (by
      intro r hr g he h
      rw [Bool.or_eq_true] at h
      rw [Bool.not_eq_true', ← Bool.not_eq_true, List.any_eq_true]
      rintro ⟨p', _, hit'⟩
      unfold hit at hit'
      rw [Bool.and_eq_true] at hit'
      rcases h with h | h
      · obtain ⟨g', _, p, _, hp, hpass, hl⟩ := hmis r hr h
        have : g' = g := by have := hp.gt; omega
        subst this
        obtain ⟨_, rfl⟩ := passes_one hG hpass hit'.1 (Or.inl rfl)
        rw [hl] at hit'
        exact absurd hit'.2 (by simp)
      · exact (fn_iff P hr he).1 h ⟨p', hit'.1⟩)
    (by
      intro g hg hQ
      rw [Bool.not_eq_true', ← Bool.not_eq_true, List.any_eq_true] at hQ
      by_cases hpass : ∃ p, pairPasses x (chosenPairs tbl g0 p0) t s g p = true
      · obtain ⟨p, hp⟩ := hpass
        have hpl := (hG.range g p (passes_chosen hp).1).2.1
        have hl : sameLabels x g p = false := by
          rw [← Bool.not_eq_true]
          intro hl
          refine hQ ⟨p, List.mem_range.2 hpl, ?_⟩
          unfold hit
          rw [hp, hl]
          rfl
        obtain ⟨ga, pa, r, hr, hp', hm⟩ := hmis' g p hp hl
        exact ⟨r, hr, hp'.gt, by rw [hm]; rfl⟩
      · obtain ⟨f, hf, he⟩ := gt_row P (List.getElem?_eq_getElem hg)
        refine ⟨f.row, List.mem_map_of_mem hf, he, ?_⟩
        rw [(fn_iff P (List.mem_map_of_mem hf) he).2 hpass, Bool.or_true])
  have hfp := pd_rows P (fun r => pairMisclf (tbl.map FRow.row) t s r || pairFp (tbl.map FRow.row) t s r)
    (fun p => scorePasses x s p && !(List.range x.1.gts.length).any (fun g => hit x (chosenPairs tbl g0 p0) t s g p))
    (by
      intro r hr h
      rw [Bool.or_eq_true] at h
      rcases h with h | h
      · obtain ⟨g, _, p, _, hp, _⟩ := hmis r hr h
        have := hp.pd
        omega
      · exact ((pairFp_spec P.owned t s hr).1 h).1.2)
    (by
      intro r hr p he h
      rw [Bool.or_eq_true] at h
      rw [Bool.and_eq_true, Bool.not_eq_true', ← Bool.not_eq_true, List.any_eq_true]
      constructor
      · rcases h with h | h
        · obtain ⟨g, _, p', _, hp, hpass, _⟩ := hmis r hr h
          have : p' = p := by have := hp.pd; omega
          subst this
          exact (passes_chosen hpass).2
        · obtain ⟨f, hf, rfl⟩ := List.mem_map.1 hr
          obtain ⟨p', pa, hp', e', _, _, e3, _⟩ := pd_in P hf (by omega)
          have : p' = p := by omega
          subst this
          rw [← score_passes hp' e3]
          exact ((fp_iff P hr he).1 h).2
      · rintro ⟨g', _, hit'⟩
        unfold hit at hit'
        rw [Bool.and_eq_true] at hit'
        rcases h with h | h
        · obtain ⟨g, _, p', _, hp, hpass, hl⟩ := hmis r hr h
          have : p' = p := by have := hp.pd; omega
          subst this
          obtain ⟨rfl, _⟩ := passes_one hG hpass hit'.1 (Or.inr rfl)
          rw [hl] at hit'
          exact absurd hit'.2 (by simp)
        · exact ((fp_iff P hr he).1 h).1 ⟨g', hit'.1⟩)
    (by
      intro p hp hQ
      rw [Bool.and_eq_true, Bool.not_eq_true', ← Bool.not_eq_true, List.any_eq_true] at hQ
      by_cases hpass : ∃ g, pairPasses x (chosenPairs tbl g0 p0) t s g p = true
      · obtain ⟨g, hg⟩ := hpass
        have hgl := (hG.range g p (passes_chosen hg).1).1
        have hl : sameLabels x g p = false := by
          rw [← Bool.not_eq_true]
          intro hl
          refine hQ.2 ⟨g, List.mem_range.2 hgl, ?_⟩
          unfold hit
          rw [hg, hl]
          rfl
        obtain ⟨ga, pa, r, hr, hp', hm⟩ := hmis' g p hg hl
        exact ⟨r, hr, hp'.pd, by rw [hm]; rfl⟩
      · obtain ⟨f, hf, he⟩ := pd_row P (List.getElem?_eq_getElem hp)
        refine ⟨f.row, List.mem_map_of_mem hf, he, ?_⟩
        obtain ⟨p', pa, hp', e', _, _, e3, _⟩ := pd_in P hf (by omega)
        have : p' = p := by omega
        subst this
        rw [(fp_iff P (List.mem_map_of_mem hf) he).2 ⟨hpass, by rw [score_passes hp' e3]; exact hQ.1⟩, Bool.or_true])
  have m1 : ((pairsWith x (fun g p => pairPasses x (chosenPairs tbl g0 p0) t s g p && sameLabels x g p)).map
      (fun y => [(k : Int), ((g0 + y.1 : Nat) : Int), ((p0 + y.2 : Nat) : Int), gtLab L x y.1, pdLab L x y.2])).mapM
        (fun key => (do let g ← (gtMap tbl).lookup (key.getD 1 0); let p ← (pdMap tbl).lookup (key.getD 2 0); pure (g, p) : Option _))
      = some ((pairsWith x (hit x (chosenPairs tbl g0 p0) t s)).map (fun y => ((x.1.gts[y.1]?).map Ann.uid, (x.1.pds[y.2]?).map Ann.uid))) := by
    rw [map_mapM]
    apply mapM_some
    rintro ⟨g, p⟩ hm
    rw [mem_pairsWith] at hm
    have hg := List.getElem?_eq_getElem hm.1.1
    have hp := List.getElem?_eq_getElem hm.1.2
    simp only [List.getD_cons_succ, List.getD_cons_zero]
    rw [lookup_gt P hg, lookup_pd P hp, hg, hp]
    rfl
  have m2 : (((List.range x.1.pds.length).filter (fun p => scorePasses x s p &&
      !(List.range x.1.gts.length).any (fun g => hit x (chosenPairs tbl g0 p0) t s g p))).map
        (fun p => [(k : Int), ((p0 + p : Nat) : Int), pdLab L x p])).mapM (fun key => (pdMap tbl).lookup (key.getD 1 0))
      = some (((List.range x.1.pds.length).filter (fun p => scorePasses x s p &&
      !(List.range x.1.gts.length).any (fun g => hit x (chosenPairs tbl g0 p0) t s g p))).map (fun p => (x.1.pds[p]?).map Ann.uid)) := by
    rw [map_mapM]
    apply mapM_some
    intro p hm
    rw [List.mem_filter, List.mem_range] at hm
    have hp := List.getElem?_eq_getElem hm.1
    simp only [List.getD_cons_succ, List.getD_cons_zero]
    rw [lookup_pd P hp, hp]
    rfl
  have m3 : (((List.range x.1.gts.length).filter (fun g => !(List.range x.1.pds.length).any (hit x (chosenPairs tbl g0 p0) t s g))).map
        (fun g => [(k : Int), ((g0 + g : Nat) : Int), gtLab L x g])).mapM (fun key => (gtMap tbl).lookup (key.getD 1 0))
      = some (((List.range x.1.gts.length).filter (fun g => !(List.range x.1.pds.length).any (hit x (chosenPairs tbl g0 p0) t s g))).map
        (fun g => (x.1.gts[g]?).map Ann.uid)) := by
    rw [map_mapM]
    apply mapM_some
    intro g hm
    rw [List.mem_filter, List.mem_range] at hm
    have hg := List.getElem?_eq_getElem hm.1
    simp only [List.getD_cons_succ, List.getD_cons_zero]
    rw [lookup_gt P hg, hg]
    rfl
  unfold exampleOf
  unfold pairTp
  dsimp only at hfn hfp ⊢
  rw [lookup_datum P hne, htp, hfn, hfp, m1, m2, m3]
  refine ⟨_, rfl, ⟨rfl, rfl, rfl, ?_, rfl, rfl⟩⟩
  dsimp only
  unfold pairsWith
  rw [List.map_flatMap]
  simp only [List.map_map]
  rfl

end Verif.Detection
