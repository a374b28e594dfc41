import Verif.Detection.Regroup
import Verif.Detection.FilterProps

/-!
# C56 (detection), C58: divisions of the cache and datum filters do not change the metrics
-/

namespace Verif.Detection

open Verif.Classification (unique)
open Verif.Cache (sortBy SortedBy StableOf sorted_stable_unique sortBy_sorted sortBy_stable)

/-- The tables hold the rows, cut between datums into pieces with ascending datums; each piece is sorted by score and IoU
(`evaluator.py` 187-192; the sort is stable). The order of rows with equal score and IoU is kept. -/
def Divides (rows : List Row) (tables : List (List Row)) : Prop :=
  ∃ pieces : List (List Row), (@StableOf Row (List Rat) LinearOrder.toDecidableEq rankKey rows pieces.flatten) ∧
    pieces.Pairwise (fun a b => ∀ x ∈ a, ∀ y ∈ b, x.datum < y.datum) ∧ tables = pieces.map (sortBy rankKey)

theorem sortBy_of_stable {α K : Type} [DecidableEq α] [LinearOrder K] {key : α → K} {l m : List α}
    (h : @StableOf α K LinearOrder.toDecidableEq key l m) : sortBy key m = sortBy key l := by
  apply sorted_stable_unique (key := key) (sortBy_sorted key m) (sortBy_sorted key l)
  intro k
  rw [sortBy_stable key m k, sortBy_stable key l k, h k]

/-- What the loader guarantees for the rows, however they are divided (see `CacheOk`). -/
structure RowsOk (rows : List Row) : Prop where
  iou : ∀ r ∈ rows, 0 ≤ r.iou ∧ r.iou ≤ 1
  form : ∀ r ∈ rows, RowOk r
  gts : ∀ x ∈ rows, ∀ y ∈ rows, 0 ≤ x.gt → x.gt = y.gt → x.datum = y.datum ∧ x.gl = y.gl
  pds : PdOwned rows

theorem divides_mem {rows : List Row} {tables : List (List Row)} (h : Divides rows tables) (r : Row) :
    r ∈ tables.flatten ↔ r ∈ rows := by
  obtain ⟨pieces, hst, _, rfl⟩ := h
  rw [← hst.perm.mem_iff, ← List.flatMap_def, List.mem_flatMap, List.mem_flatten]
  simp only [mem_sortBy]

theorem divides_ok {rows : List Row} {tables : List (List Row)} (h : Divides rows tables) (hok : RowsOk rows) : CacheOk tables := by
  have hm := divides_mem h
  refine ⟨?_, ?_, ?_, ?_⟩
  · obtain ⟨pieces, _, hd, rfl⟩ := h
    unfold Aligned
    rw [List.pairwise_map]
    refine hd.imp ?_
    intro a b hab x hx y hy he
    have := hab x (mem_sortBy.1 hx) y (mem_sortBy.1 hy)
    omega
  · intro t ht r hr
    exact hok.iou r ((hm r).1 (List.mem_flatten.2 ⟨t, ht, hr⟩))
  · intro t ht r hr
    exact hok.form r ((hm r).1 (List.mem_flatten.2 ⟨t, ht, hr⟩))
  · intro x hx y hy
    exact hok.gts x ((hm x).1 hx) y ((hm y).1 hy)

theorem RowsOk.filter {rows : List Row} (h : RowsOk rows) (P : Row → Bool) : RowsOk (rows.filter P) where
  iou := fun r hr => h.iou r (List.mem_filter.1 hr).1
  form := fun r hr => h.form r (List.mem_filter.1 hr).1
  gts := fun x hx y hy => h.gts x (List.mem_filter.1 hx).1 y (List.mem_filter.1 hy).1
  pds := h.pds.subset (fun x hx => (List.mem_filter.1 hx).1)

/-- The ranked rows are determined by the rows alone. -/
theorem ranked_canonical {rows : List Row} {tables : List (List Row)} (h : Divides rows tables) (hok : RowsOk rows)
    {out : List RRow} (hr : RankedOf tables out) : out.map RRow.row = lexsort rankKey (chosen rows) := by
  obtain ⟨pieces, hstab, hd, rfl⟩ := h
  have hch : chosen rows = chosen pieces.flatten := by
    unfold chosen
    rw [sortBy_of_stable hstab]
  have hpds : PdOwned pieces.flatten := hok.pds.subset (fun x hx => hstab.perm.mem_iff.1 hx)
  rw [hch]
  apply sorted_stable_unique (key := rankKey)
  · unfold SortedBy
    rw [List.pairwise_map]
    exact hr.1
  · exact lexsort_sorted rankKey _
  · intro k
    have hst := hr.2 k
    have e1 : (out.map RRow.row).filter (fun x => decide (rankKey x = k))
        = (((pieces.map (sortBy rankKey)).map ranked).flatten).filter (fun x => decide (rankKey x = k)) := by
      have : ((pieces.map (sortBy rankKey)).map ranked).flatten
          = (((pieces.map (sortBy rankKey)).map rankTable).flatten).map RRow.row := by
        rw [List.map_flatten, List.map_map (g := List.map RRow.row)]
        rfl
      rw [this, List.filter_map, List.filter_map]
      congr 1
      have hd : ∀ l : List RRow, l.filter ((fun x => decide (rankKey x = k)) ∘ RRow.row)
          = l.filter (fun x => @decide _ (LinearOrder.toDecidableEq (rankKey x.row) k)) := by
        intro l
        apply List.filter_congr
        intro x _
        rw [Bool.eq_iff_iff]
        simp only [Function.comp_apply, decide_eq_true_eq]
      rw [hd, hd]
      exact hst
    have e2 : (lexsort rankKey (chosen pieces.flatten)).filter (fun x => decide (rankKey x = k))
        = (chosen pieces.flatten).filter (fun x => decide (rankKey x = k)) := lexsort_stable rankKey _ k
    have e3 : (((pieces.map (sortBy rankKey)).map ranked).flatten).filter (fun x => decide (rankKey x = k))
        = ((pieces.map chosen).flatten).filter (fun x => decide (rankKey x = k)) := by
      rw [List.map_map]
      have : ∀ ps : List (List Row), ((ps.map (ranked ∘ sortBy rankKey)).flatten).filter (fun x => decide (rankKey x = k))
          = ((ps.map chosen).flatten).filter (fun x => decide (rankKey x = k)) := by
        intro ps
        induction ps with
        | nil => rfl
        | cons p ps ih =>
          rw [List.map_cons, List.map_cons, List.flatten_cons, List.flatten_cons, List.filter_append, List.filter_append, ih]
          congr 1
          rw [Function.comp_apply, ranked_chosen, chosen_sort]
          exact lexsort_stable rankKey _ k
      exact this pieces
    have hd2 : ∀ l : List Row, l.filter (fun x => @decide _ (LinearOrder.toDecidableEq (rankKey x) k))
        = l.filter (fun x => decide (rankKey x = k)) := by
      intro l
      apply List.filter_congr
      intro x _
      rw [Bool.eq_iff_iff]
      simp only [decide_eq_true_eq]
    rw [← chosen_flatten hpds hd, ← e2] at e3
    exact (hd2 _).trans ((e1.trans e3).trans (hd2 _).symm)

/-! ## Decisions -/

/-- Two ranked sequences that agree in the rows and in the decisions at threshold `t`. -/
def Alike (t : Rat) (a b : List RRow) : Prop := List.Forall₂ (fun x y : RRow => x.row = y.row ∧ tpOuter t x = tpOuter t y) a b

/-- For every threshold, whether a ranked row counts is decided by the rows before it. -/
theorem outer_first {tables : List (List Row)} (hc : CacheOk tables) {out : List RRow} (h : RankedOf tables out) (t : Rat)
    (pre : List RRow) (r : RRow) (post : List RRow) (he : out = pre ++ r :: post) :
    tpOuter t r = true ↔ 0 < t ∧ EPSILON < r.row.score ∧ FirstAt t pre r := by
  have hr : r ∈ out := by rw [he]; simp
  obtain ⟨_, h2, h3⟩ := ranked_pd hc h hr
  rw [tpOuter_iff h3 h2]
  by_cases ht : 0 < t
  · rw [merged_first (t := t) hc.aligned (fun tbl ht r hr => (hc.iou tbl ht r hr).2) h.1 h.2 ht he]
    tauto
  · obtain ⟨tbl, htbl, hrt⟩ := mem_merged h hr
    have := C27_zero_threshold tbl (fun x hx => (hc.iou tbl htbl x hx).1) hrt (not_lt.1 ht)
    tauto

theorem firstAt_rows {t : Rat} {p q : List RRow} {a b : RRow} (hpq : p.map RRow.row = q.map RRow.row) (hab : a.row = b.row) :
    FirstAt t p a ↔ FirstAt t q b := by
  unfold FirstAt
  rw [hab]
  have : ∀ p : List RRow, (∀ x ∈ p, SameGroundtruth x.row b.row → Matches x.row → x.row.iou < t) ↔
      ∀ x ∈ p.map RRow.row, SameGroundtruth x b.row → Matches x → x.iou < t := by
    intro p
    simp
  rw [this, this, hpq]

theorem alike_of_rows {t : Rat} {a b : List RRow}
    (ha : ∀ pre r post, a = pre ++ r :: post → (tpOuter t r = true ↔ 0 < t ∧ EPSILON < r.row.score ∧ FirstAt t pre r))
    (hb : ∀ pre r post, b = pre ++ r :: post → (tpOuter t r = true ↔ 0 < t ∧ EPSILON < r.row.score ∧ FirstAt t pre r))
    (h : a.map RRow.row = b.map RRow.row) : Alike t a b := by
  have hlen : a.length = b.length := by simpa using congrArg List.length h
  unfold Alike
  rw [List.forall₂_iff_get]
  refine ⟨hlen, ?_⟩
  intro i h1 h2
  have hrow : (a.get ⟨i, h1⟩).row = (b.get ⟨i, h2⟩).row := by
    have := congrArg (fun l => l[i]?) h
    simp only [List.getElem?_map, List.getElem?_eq_getElem h1, List.getElem?_eq_getElem h2, Option.map_some, Option.some.injEq] at this
    exact this
  refine ⟨hrow, ?_⟩
  have e1 : a = a.take i ++ a.get ⟨i, h1⟩ :: a.drop (i + 1) := by simp
  have e2 : b = b.take i ++ b.get ⟨i, h2⟩ :: b.drop (i + 1) := by simp
  rw [Bool.eq_iff_iff, ha _ _ _ e1, hb _ _ _ e2, hrow]
  rw [firstAt_rows (q := b.take i) (by rw [List.map_take, List.map_take, h]) hrow]

/-! ## Metrics of alike sequences -/

/-- True positives at the same ground truth. -/
def Single (t : Rat) (a : List RRow) : Prop :=
  a.Pairwise (fun x y => tpOuter t x = true → tpOuter t y = true → gtKey x.row ≠ gtKey y.row)

theorem single_of {t : Rat} {a : List RRow}
    (ha : ∀ pre r post, a = pre ++ r :: post → (tpOuter t r = true ↔ 0 < t ∧ EPSILON < r.row.score ∧ FirstAt t pre r)) :
    Single t a := by
  unfold Single
  rw [List.pairwise_iff_getElem]
  intro i j hi hj hij h1 h2 hk
  have e1 : a = a.take i ++ a[i] :: a.drop (i + 1) := by simp
  have e2 : a = a.take j ++ a[j] :: a.drop (j + 1) := by simp
  have f1 := ((ha _ _ _ e1).1 h1).2.2
  have f2 := ((ha _ _ _ e2).1 h2).2.2
  have hm : a[i] ∈ a.take j := by
    rw [List.mem_take_iff_getElem]
    exact ⟨i, by omega, rfl⟩
  have := f2.2.2 _ hm (gtKey_iff.1 hk) f1.1
  have := f1.2.1
  linarith

theorem tpTotal_single {t : Rat} (s : Rat) (l : Int) (chunks : List (List RRow)) (h : Single t chunks.flatten) :
    tpTotal t s chunks l = (chunks.flatten.filter (fun r => decide (r.row.pl = l) && tpInner t s r)).length := by
  have hp : chunks.flatten.Pairwise (fun x y => tpInner t s x = true → tpInner t s y = true → gtKey x.row ≠ gtKey y.row) := by
    refine h.imp ?_
    intro x y hxy h1 h2
    unfold tpInner at h1 h2
    rw [Bool.and_eq_true] at h1 h2
    exact hxy h1.1 h2.1
  clear h
  unfold tpTotal
  induction chunks with
  | nil => rfl
  | cons c cs ih =>
    rw [List.flatten_cons, List.pairwise_append] at hp
    rw [List.map_cons, List.sum_cons, List.flatten_cons, List.filter_append, List.length_append, ih hp.2.1]
    congr 1
    unfold tpCount
    rw [truePositives_all t s c [] hp.1 (by simp)]
    exact zip_map_filter (tpInner t s) (fun a b => decide (a.row.pl = l) && b) c

theorem alike_filter_length {t : Rat} {a b : List RRow} (h : Alike t a b) (p : Row → Bool → Bool) :
    (a.filter (fun r => p r.row (tpOuter t r))).length = (b.filter (fun r => p r.row (tpOuter t r))).length := by
  unfold Alike at h
  induction h with
  | nil => rfl
  | cons h _ ih =>
    rw [List.filter_cons, List.filter_cons, h.1, h.2]
    split
    · rw [List.length_cons, List.length_cons, ih]
    · exact ih

theorem alike_points {t : Rat} {a b : List RRow} (h : Alike t a b) (n : Nat) (l : Int) (total tp : Nat) :
    points t n total tp (a.filter (fun r => decide (r.row.pl = l))) = points t n total tp (b.filter (fun r => decide (r.row.pl = l))) := by
  unfold Alike at h
  induction h generalizing total tp with
  | nil => rfl
  | cons h _ ih =>
    rw [List.filter_cons, List.filter_cons, h.1]
    split
    · rw [points, points, h.1, h.2, ih]
    · exact ih _ _

/-! ## The scores of the curve -/

theorem points_scores (t : Rat) (n : Nat) (rows : List RRow) (total tp : Nat) :
    (points t n total tp rows).1.map Point.score = rows.map (fun r => r.row.score) := by
  induction rows generalizing total tp with
  | nil => rfl
  | cons r rs ih =>
    rw [points]
    dsimp only
    rw [List.map_cons, List.map_cons, ih]

/-- Highest score of the points of a bin. -/
def topScore (c : Nat → Rat) (ps : List Point) : Nat → Rat := fun b =>
  ((ps.filter (fun p => decide (p.bin = b))).map Point.score).foldl max (c b)

theorem foldl_max_const (l : List Rat) (a : Rat) (h : ∀ x ∈ l, x ≤ a) : l.foldl max a = a := by
  induction l generalizing a with
  | nil => rfl
  | cons x l ih =>
    rw [List.foldl_cons, max_eq_left (h x (by simp))]
    exact ih a (fun y hy => h y (by simp [hy]))

theorem updateScore_top (c : Nat → Rat) (ps : List Point) (h : (ps.map Point.score).Pairwise (fun a b => b ≤ a)) :
    updateScore c ps = topScore c ps := by
  funext b
  unfold updateScore topScore
  rw [List.pairwise_map] at h
  induction ps with
  | nil => rfl
  | cons p ps ih =>
    rw [List.pairwise_cons] at h
    rw [List.find?_cons, List.filter_cons]
    by_cases hb : p.bin = b
    · rw [if_pos (by simpa using hb)]
      simp only [hb, decide_true, List.map_cons, List.foldl_cons]
      symm
      apply foldl_max_const
      intro x hx
      obtain ⟨q, hq, rfl⟩ := List.mem_map.1 hx
      exact le_trans (h.1 q (List.mem_filter.1 hq).1) (le_max_right _ _)
    · rw [if_neg (by simpa using hb)]
      simp only [hb, decide_false]
      exact ih h.2

theorem topScore_append (c : Nat → Rat) (p q : List Point) : topScore (topScore c p) q = topScore c (p ++ q) := by
  funext b
  unfold topScore
  rw [List.filter_append, List.map_append, List.foldl_append]

theorem curve_score (t : Rat) (n : Nat) (l : Int) (chunks : List (List RRow)) (c : Curve)
    (h : chunks.flatten.Pairwise (fun a b => b.row.score ≤ a.row.score)) :
    (chunks.foldl (curveStep t n l) c).score = topScore c.score (points t n c.total c.tp
      (chunks.flatten.filter (fun r => decide (r.row.pl = l)))).1 := by
  induction chunks generalizing c with
  | nil =>
    funext b
    simp [topScore, points]
  | cons a cs ih =>
    rw [List.flatten_cons, List.pairwise_append] at h
    rw [List.foldl_cons, ih _ h.2.1, List.flatten_cons, List.filter_append, (points_append t n _ _ _ _).1, ← topScore_append]
    congr 1
    unfold curveStep
    dsimp only
    apply updateScore_top
    rw [points_scores, List.pairwise_map]
    exact h.1.filter _

/-- The metrics of alike sequences are equal, for any cuts into tables. -/
theorem alike_metrics {t : Rat} {a b : List RRow} (hab : Alike t a b) (ha : Single t a) (hb : Single t b)
    (sa : a.Pairwise (fun x y => y.row.score ≤ x.row.score)) (sb : b.Pairwise (fun x y => y.row.score ≤ x.row.score))
    {chunks chunks' : List (List RRow)} (h1 : chunks.flatten = a) (h2 : chunks'.flatten = b) :
    (∀ s l, tpTotal t s chunks l = tpTotal t s chunks' l ∧ fpTotal t s chunks l = fpTotal t s chunks' l) ∧
    (∀ n l, (curveOf t n l chunks).prec = (curveOf t n l chunks').prec ∧ (curveOf t n l chunks).score = (curveOf t n l chunks').score) := by
  subst h1 h2
  constructor
  · intro s l
    have e1 : tpTotal t s chunks l = tpTotal t s chunks' l := by
      rw [tpTotal_single s l chunks ha, tpTotal_single s l chunks' hb]
      exact alike_filter_length hab (fun r d => decide (r.pl = l) && (d && decide (r.score ≥ s)))
    have e2 := C28_tp_fp t s l chunks
    have e3 := C28_tp_fp t s l chunks'
    have e4 := alike_filter_length hab (fun r _ => decide (r.pl = l ∧ s ≤ r.score ∧ EPSILON < r.score))
    have e5 : (chunks.flatten.filter (fun r => decide (Active s l r))).length
        = (chunks'.flatten.filter (fun r => decide (Active s l r))).length := by
      unfold Active
      exact e4
    exact ⟨e1, by omega⟩
  · intro n l
    constructor
    · rw [curve_prec, curve_prec, alike_points hab]
    · unfold curveOf
      rw [curve_score t n l chunks _ sa, curve_score t n l chunks' _ sb, alike_points hab]

/-! ## C58 -/

theorem dedup_length_congr {β : Type} [DecidableEq β] {a b : List β} (h : ∀ x, x ∈ a ↔ x ∈ b) : a.dedup.length = b.dedup.length := by
  apply List.Perm.length_eq
  rw [List.perm_ext_iff_of_nodup (List.nodup_dedup _) (List.nodup_dedup _)]
  intro x
  rw [List.mem_dedup, List.mem_dedup, h]

theorem gtCount_congr {t1 t2 : List (List Row)} (h1 : CacheOk t1) (h2 : CacheOk t2) (h : ∀ r, r ∈ t1.flatten ↔ r ∈ t2.flatten) (l : Int) :
    gtCount t1 l = gtCount t2 l := by
  rw [C28_groundtruths h1, C28_groundtruths h2]
  apply dedup_length_congr
  intro x
  simp only [List.mem_map, List.mem_filter, h]

theorem ranked_scores {tables : List (List Row)} {out : List RRow} (h : RankedOf tables out) :
    out.Pairwise (fun x y => y.row.score ≤ x.row.score) := by
  refine List.Pairwise.imp ?_ h.1
  intro x y hxy
  rcases rankKey_le.1 hxy with h | h
  · exact h.le
  · exact h.1.le

/-- **C58.** However the rows are divided into tables of the detailed cache, and however the ranked cache
is cut: numbers of ground truths, true and false positives and false negatives, the curve of precisions and scores
and the average precision are the same, for all thresholds and labels. -/
theorem C58_division {rows : List Row} (hok : RowsOk rows) {t1 t2 : List (List Row)} (h1 : Divides rows t1) (h2 : Divides rows t2)
    {out1 out2 : List RRow} (r1 : RankedOf t1 out1) (r2 : RankedOf t2 out2) {chunks1 chunks2 : List (List RRow)}
    (c1 : chunks1.flatten = out1) (c2 : chunks2.flatten = out2) (t : Rat) (l : Int) :
    gtCount t1 l = gtCount t2 l ∧
    (∀ s, tpTotal t s chunks1 l = tpTotal t s chunks2 l ∧ fpTotal t s chunks1 l = fpTotal t s chunks2 l ∧
      fnTotal t s t1 chunks1 l = fnTotal t s t2 chunks2 l) ∧
    (curveOf t (gtCount t1 l) l chunks1).prec = (curveOf t (gtCount t2 l) l chunks2).prec ∧
    (curveOf t (gtCount t1 l) l chunks1).score = (curveOf t (gtCount t2 l) l chunks2).score ∧
    averagePrecision (curveOf t (gtCount t1 l) l chunks1).prec = averagePrecision (curveOf t (gtCount t2 l) l chunks2).prec := by
  have k1 := divides_ok h1 hok
  have k2 := divides_ok h2 hok
  have f1 := outer_first k1 r1 t
  have f2 := outer_first k2 r2 t
  have hrows := (ranked_canonical h1 hok r1).trans (ranked_canonical h2 hok r2).symm
  have hg := gtCount_congr k1 k2 (fun r => (divides_mem h1 r).trans (divides_mem h2 r).symm) l
  obtain ⟨m1, m2⟩ := alike_metrics (alike_of_rows f1 f2 hrows) (single_of f1) (single_of f2) (ranked_scores r1) (ranked_scores r2) c1 c2
  rw [← hg]
  refine ⟨rfl, ?_, (m2 _ l).1, (m2 _ l).2, by rw [(m2 _ l).1]⟩
  intro s
  refine ⟨(m1 s l).1, (m1 s l).2, ?_⟩
  unfold fnTotal
  rw [hg, (m1 s l).1]

/-! ## C56 -/

theorem lexsort_filter (P : Row → Bool) (l : List Row) : (lexsort rankKey l).filter P = lexsort rankKey (l.filter P) := by
  apply sorted_stable_unique (key := rankKey)
  · exact List.Pairwise.filter _ (lexsort_sorted rankKey l)
  · exact lexsort_sorted rankKey _
  · intro k
    have hd2 : ∀ l : List Row, l.filter (fun x => @decide _ (LinearOrder.toDecidableEq (rankKey x) k))
        = l.filter (fun x => decide (rankKey x = k)) := by
      intro l
      apply List.filter_congr
      intro x _
      rw [Bool.eq_iff_iff]
      simp only [decide_eq_true_eq]
    refine (hd2 _).trans (Eq.trans ?_ (hd2 _).symm)
    rw [List.filter_comm, lexsort_stable, lexsort_stable, List.filter_comm]

/-- A ranked table read with a filter on datums. -/
def readRanked (D : Int → Bool) (c : List RRow) : List RRow := c.filter (fun r => D r.row.datum)

theorem filtered_first {t : Rat} {out : List RRow} (D : Int → Bool)
    (h : ∀ pre r post, out = pre ++ r :: post → (tpOuter t r = true ↔ 0 < t ∧ EPSILON < r.row.score ∧ FirstAt t pre r))
    (pre : List RRow) (r : RRow) (post : List RRow) (he : readRanked D out = pre ++ r :: post) :
    tpOuter t r = true ↔ 0 < t ∧ EPSILON < r.row.score ∧ FirstAt t pre r := by
  have hD : D r.row.datum = true := by
    have : r ∈ readRanked D out := by rw [he]; simp
    exact (List.mem_filter.1 this).2
  obtain ⟨a, b, hab, ha⟩ := filter_split he
  rw [h a r b hab, ← ha]
  refine and_congr_right (fun _ => and_congr_right (fun _ => ?_))
  unfold FirstAt
  refine and_congr_right (fun _ => and_congr_right (fun _ => ?_))
  constructor
  · exact fun h x hx => h x (List.mem_filter.1 hx).1
  · intro h x hx hs hm
    refine h x (List.mem_filter.2 ⟨hx, ?_⟩) hs hm
    rw [hs.1]
    exact hD

/-- **C56 (detection).** Computing precision and recall with a filter on datums gives the same as filtering
the evaluator by these datums first, for any division of both caches: numbers of ground truths, true and false positives
and false negatives, curve and average precision, for all thresholds and labels. -/
theorem C56_detection {rows : List Row} (hok : RowsOk rows) (D : Int → Bool) {t1 t2 : List (List Row)} (h1 : Divides rows t1)
    (h2 : Divides (rows.filter (fun r => D r.datum)) t2) {out1 out2 : List RRow} (r1 : RankedOf t1 out1) (r2 : RankedOf t2 out2)
    {chunks1 chunks2 : List (List RRow)} (c1 : chunks1.flatten = out1) (c2 : chunks2.flatten = out2) (t : Rat) (l : Int) :
    let read := t1.map (fun tbl => tbl.filter (fun r => D r.datum))
    let readR := chunks1.map (readRanked D)
    gtCount read l = gtCount t2 l ∧
    (∀ s, tpTotal t s readR l = tpTotal t s chunks2 l ∧ fpTotal t s readR l = fpTotal t s chunks2 l ∧
      fnTotal t s read readR l = fnTotal t s t2 chunks2 l) ∧
    (curveOf t (gtCount read l) l readR).prec = (curveOf t (gtCount t2 l) l chunks2).prec ∧
    (curveOf t (gtCount read l) l readR).score = (curveOf t (gtCount t2 l) l chunks2).score ∧
    averagePrecision (curveOf t (gtCount read l) l readR).prec = averagePrecision (curveOf t (gtCount t2 l) l chunks2).prec := by
  intro read readR
  have hok2 := hok.filter (fun r => D r.datum)
  have k1 := divides_ok h1 hok
  have k2 := divides_ok h2 hok2
  have hflat : read.flatten = t1.flatten.filter (fun r => D r.datum) := by
    rw [List.filter_flatten]
  have kr : CacheOk read := by
    refine ⟨?_, ?_, ?_, ?_⟩
    · unfold Aligned
      rw [List.pairwise_map]
      refine List.Pairwise.imp ?_ k1.aligned
      intro a b hab x hx y hy
      exact hab x (List.mem_filter.1 hx).1 y (List.mem_filter.1 hy).1
    · intro tb htb r hr
      obtain ⟨tb', h', rfl⟩ := List.mem_map.1 htb
      exact k1.iou tb' h' r (List.mem_filter.1 hr).1
    · intro tb htb r hr
      obtain ⟨tb', h', rfl⟩ := List.mem_map.1 htb
      exact k1.rows tb' h' r (List.mem_filter.1 hr).1
    · rw [hflat]
      intro x hx y hy
      exact k1.gts x (List.mem_filter.1 hx).1 y (List.mem_filter.1 hy).1
  have f1 := filtered_first D (outer_first k1 r1 t)
  have f2 := outer_first k2 r2 t
  have hrows : (readRanked D out1).map RRow.row = out2.map RRow.row := by
    rw [ranked_canonical h2 hok2 r2]
    have : (readRanked D out1).map RRow.row = (out1.map RRow.row).filter (fun r => D r.datum) := by
      rw [List.filter_map]
      rfl
    rw [this, ranked_canonical h1 hok r1, lexsort_filter]
    congr 1
    exact chosen_filter D hok.pds
  have hg : gtCount read l = gtCount t2 l := by
    apply gtCount_congr kr k2
    intro r
    rw [hflat, divides_mem h2, List.mem_filter, List.mem_filter, divides_mem h1]
  have c1' : readR.flatten = readRanked D out1 := by
    rw [← c1]
    unfold readRanked
    rw [List.filter_flatten]
    rfl
  obtain ⟨m1, m2⟩ := alike_metrics (alike_of_rows f1 f2 hrows) (single_of f1) (single_of f2)
    (List.Pairwise.filter _ (ranked_scores r1)) (ranked_scores r2) c1' c2
  rw [← hg]
  refine ⟨rfl, ?_, (m2 _ l).1, (m2 _ l).2, by rw [(m2 _ l).1]⟩
  intro s
  refine ⟨(m1 s l).1, (m1 s l).2, ?_⟩
  unfold fnTotal
  rw [hg, (m1 s l).1]

end Verif.Detection
