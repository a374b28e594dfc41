import Verif.Detection.RankLemmas

/-! # C26, C27: ranking -/

namespace Verif.Detection

open Verif.Classification (isclose isclose_ids unique)
open Verif.Cache (SortedBy StableOf sortBy sortBy_sorted sortBy_stable FileW sortToFile sortToFile_reads ReadsAs
  IsBatching sorted_stable_unique)

/-! ## Vocabulary -/

/-- The pair of a ground truth and a prediction with the same label. -/
def Matches (r : Row) : Prop := 0 ≤ r.gt ∧ r.gl = r.pl

instance (r : Row) : Decidable (Matches r) := by unfold Matches; infer_instance

/-- `r` is ranked at least as high as `c`. -/
def BetterEq (r c : Row) : Prop := c.score < r.score ∨ (c.score = r.score ∧ c.iou ≤ r.iou)

instance (r c : Row) : Decidable (BetterEq r c) := by unfold BetterEq; infer_instance

/-- Same datum, prediction and predicted label. -/
def SamePrediction (x y : Row) : Prop := x.datum = y.datum ∧ x.pd = y.pd ∧ x.pl = y.pl

instance (x y : Row) : Decidable (SamePrediction x y) := by unfold SamePrediction; infer_instance

/-- What the loader guarantees for a row (proved in `LoaderProps`): an existing prediction has a label
id, here below 100000; a missing ground truth has label id -1. -/
def RowOk (r : Row) : Prop := (0 ≤ r.pd → 0 ≤ r.pl ∧ r.pl < 100000) ∧ (r.gt < 0 → r.gl = -1)

instance (r : Row) : Decidable (RowOk r) := by unfold RowOk; infer_instance

/-- Every prediction belongs to one datum and carries one label. -/
def SingleLabel (t : List Row) : Prop :=
  ∀ x ∈ t, ∀ y ∈ t, 0 ≤ x.pd → x.pd = y.pd → x.datum = y.datum ∧ x.pl = y.pl

instance (t : List Row) : Decidable (SingleLabel t) := by unfold SingleLabel; infer_instance

/-- The rows of the ranked table without the boundary column. -/
def ranked (t : List Row) : List Row := (rankTable t).map RRow.row

/-! ## C26 -/

theorem ranked_eq (t : List Row) : ranked t = rankPairs (sortBy rankKey t) := by
  unfold ranked rankTable
  dsimp only
  apply List.ext_getElem?
  intro i
  rw [List.getElem?_map, List.getElem?_zipWith]
  cases h : (rankPairs (sortBy rankKey t))[i]? with
  | none => rfl
  | some r =>
    have hi := (List.getElem?_eq_some_iff.1 h).1
    rw [← boundaries_length] at hi
    rw [List.getElem?_eq_getElem hi]
    rfl

theorem labelMatch_iff {r : Row} (h : RowOk r) (hp : 0 ≤ r.pd) : labelMatch r = true ↔ Matches r := by
  obtain ⟨h1, h2⟩ := h.1 hp
  unfold labelMatch Matches
  rw [isclose_ids h1 h2, decide_eq_true_eq]
  constructor
  · intro he
    refine ⟨?_, he⟩
    by_contra hc
    have := h.2 (by omega)
    omega
  · exact fun h => h.2

theorem pdKey_iff {x y : Row} : pdKey x = pdKey y ↔ SamePrediction x y := by
  unfold pdKey SamePrediction
  simp

theorem mem_sortBy {t : List Row} {r : Row} : r ∈ sortBy rankKey t ↔ r ∈ t :=
  (sortBy_stable rankKey t).perm.mem_iff

/-- The candidates kept by `rank_pairs`. -/
def kept (l : List Row) : List Row :=
  let pairs := l.filter (fun r => decide (r.pd ≥ 0))
  pairs.filter (fun r => labelMatch r || !(unique ((pairs.filter labelMatch).map Row.pd)).contains r.pd)

theorem rankPairs_eq (l : List Row) : rankPairs l = lexsort rankKey (uniqueFirst pdKey (kept l)) := rfl

theorem mem_kept {l : List Row} (hok : ∀ r ∈ l, RowOk r) {r : Row} :
    r ∈ kept l ↔ r ∈ l ∧ 0 ≤ r.pd ∧ (Matches r ∨ ∀ c ∈ l, c.pd = r.pd → ¬ Matches c) := by
  unfold kept unique
  dsimp only
  rw [List.mem_filter, List.mem_filter]
  simp only [decide_eq_true_eq, Bool.or_eq_true, Bool.not_eq_true', List.contains_eq_mem, decide_eq_false_iff_not,
    List.mem_dedup, List.mem_map, List.mem_filter, not_exists, not_and, and_imp]
  constructor
  · rintro ⟨⟨h1, h2⟩, h3⟩
    refine ⟨h1, h2, ?_⟩
    rcases h3 with h3 | h3
    · exact Or.inl ((labelMatch_iff (hok r h1) h2).1 h3)
    · right
      intro c hc hpd hm
      have hp : 0 ≤ c.pd := by rw [hpd]; exact h2
      exact h3 c hc hp ((labelMatch_iff (hok c hc) hp).2 hm) hpd
  · rintro ⟨h1, h2, h3⟩
    refine ⟨⟨h1, h2⟩, ?_⟩
    rcases h3 with h3 | h3
    · exact Or.inl ((labelMatch_iff (hok r h1) h2).2 h3)
    · right
      intro c hc hp hm hpd
      exact h3 c hc hpd ((labelMatch_iff (hok c hc) hp).1 hm)

theorem kept_sorted {l : List Row} (h : l.Pairwise (fun a b => rankKey a ≤ rankKey b)) :
    (kept l).Pairwise (fun a b => rankKey a ≤ rankKey b) := by
  unfold kept
  exact (h.filter _).filter _

/-- **C26 (order).** The ranked rows come in descending order of score, then IoU. -/
theorem C26_order (t : List Row) : (ranked t).Pairwise BetterEq := by
  rw [ranked_eq, rankPairs_eq]
  exact (lexsort_sorted rankKey _).imp (fun h => rankKey_le.1 h)

/-- **C26 (content).** Every ranked row is a row of the table with a prediction; it has a matching label
whenever some row of the same prediction label has; and it is ranked at least as high as every other
candidate. -/
theorem C26_best (t : List Row) (hok : ∀ r ∈ t, RowOk r) {r : Row} (hr : r ∈ ranked t) :
    r ∈ t ∧ 0 ≤ r.pd ∧ ∀ c ∈ t, SamePrediction c r →
      (Matches c → Matches r) ∧ ((Matches c ↔ Matches r) → BetterEq r c) := by
  rw [ranked_eq, rankPairs_eq] at hr
  have hu := (lexsort_perm rankKey _).mem_iff.1 hr
  have hok' : ∀ r ∈ sortBy rankKey t, RowOk r := fun r h => hok r (mem_sortBy.1 h)
  have hk := uniqueFirst_mem hu
  rw [mem_kept hok', mem_sortBy] at hk
  obtain ⟨h1, h2, h3⟩ := hk
  refine ⟨h1, h2, ?_⟩
  intro c hc hs
  have hmm : Matches c → Matches r := by
    intro hm
    rcases h3 with h3 | h3
    · exact h3
    · exact absurd hm (h3 c (mem_sortBy.2 hc) hs.2.1)
  refine ⟨hmm, ?_⟩
  intro hiff
  have hck : c ∈ kept (sortBy rankKey t) := by
    rw [mem_kept hok', mem_sortBy]
    refine ⟨hc, by rw [hs.2.1]; exact h2, ?_⟩
    rcases h3 with h3 | h3
    · exact Or.inl (hiff.2 h3)
    · exact Or.inr (fun d hd hpd => h3 d hd (hpd.trans hs.2.1))
  exact rankKey_le.1 (uniqueFirst_best (kept_sorted (sortBy_sorted rankKey t)) hu hck (pdKey_iff.2 hs))

theorem ranked_nodup (t : List Row) : ((ranked t).map pdKey).Nodup := by
  rw [ranked_eq, rankPairs_eq]
  exact (((lexsort_perm rankKey _).map pdKey).nodup_iff).2 (uniqueFirst_nodup _ _)

theorem ranked_has (t : List Row) (hok : ∀ r ∈ t, RowOk r) {x : Row} :
    (∃ r ∈ ranked t, SamePrediction r x) ↔
      ∃ c ∈ t, SamePrediction c x ∧ 0 ≤ c.pd ∧ (Matches c ∨ ∀ d ∈ t, d.pd = c.pd → ¬ Matches d) := by
  have hok' : ∀ r ∈ sortBy rankKey t, RowOk r := fun r h => hok r (mem_sortBy.1 h)
  rw [ranked_eq, rankPairs_eq]
  constructor
  · rintro ⟨r, hr, hs⟩
    have hk := uniqueFirst_mem ((lexsort_perm rankKey _).mem_iff.1 hr)
    rw [mem_kept hok', mem_sortBy] at hk
    exact ⟨r, hk.1, hs, hk.2.1, hk.2.2.imp id (fun h d hd => h d (mem_sortBy.2 hd))⟩
  · rintro ⟨c, hc, hs, hp, h⟩
    have hk : c ∈ kept (sortBy rankKey t) := by
      rw [mem_kept hok', mem_sortBy]
      exact ⟨hc, hp, h.imp id (fun h d hd => h d (mem_sortBy.1 hd))⟩
    obtain ⟨r, hr, he⟩ := uniqueFirst_has (key := pdKey) hk
    refine ⟨r, (lexsort_perm rankKey _).mem_iff.2 hr, ?_⟩
    have := pdKey_iff.1 he
    unfold SamePrediction at *
    omega

theorem count_of_nodup {l : List Row} (h : (l.map pdKey).Nodup) (x : Row) :
    (l.filter (fun r => decide (SamePrediction r x))).length = if ∃ r ∈ l, SamePrediction r x then 1 else 0 := by
  induction l with
  | nil => simp
  | cons a l ih =>
    rw [List.map_cons, List.nodup_cons] at h
    rw [List.filter_cons]
    by_cases ha : SamePrediction a x
    · rw [if_pos (by simpa using ha), List.length_cons, ih h.2, if_neg, if_pos ⟨a, by simp, ha⟩]
      rintro ⟨r, hr, hs⟩
      apply h.1
      have : pdKey a = pdKey r := by
        rw [pdKey_iff]
        unfold SamePrediction at *
        omega
      rw [this]
      exact List.mem_map_of_mem hr
    · rw [if_neg (by simpa using ha), ih h.2]
      congr 1
      simp only [List.mem_cons, eq_iff_iff]
      constructor
      · rintro ⟨r, hr, hs⟩; exact ⟨r, Or.inr hr, hs⟩
      · rintro ⟨r, rfl | hr, hs⟩
        · exact absurd hs ha
        · exact ⟨r, hr, hs⟩

/-- **C26 (multiplicity), exact for any table.** A prediction label occurs at most once in the ranked
table. It is there iff one of its pairs matches, or no pair of the prediction, with whatever label,
matches. -/
theorem C26_multiplicity (t : List Row) (hok : ∀ r ∈ t, RowOk r) (x : Row) :
    ((ranked t).filter (fun r => decide (SamePrediction r x))).length =
      if ∃ c ∈ t, SamePrediction c x ∧ 0 ≤ c.pd ∧ (Matches c ∨ ∀ d ∈ t, d.pd = c.pd → ¬ Matches d) then 1 else 0 := by
  rw [count_of_nodup (ranked_nodup t)]
  simp only [ranked_has t hok]

/-- The full statement of the multiplicity part of C26. -/
def OneRowPerPredictionLabel : Prop :=
  ∀ t : List Row, (∀ r ∈ t, RowOk r) → ∀ x ∈ t, 0 ≤ x.pd →
    ((ranked t).filter (fun r => decide (SamePrediction r x))).length = 1

/-- **C26 (partial).** For predictions with one label every prediction has exactly one ranked row.
Missing: predictions with several labels, for which it is false (`C26_violation`); what holds for them is
`C26_multiplicity`. -/
theorem C26_single_label_partial (t : List Row) (hok : ∀ r ∈ t, RowOk r) (hs : SingleLabel t) {x : Row}
    (hx : x ∈ t) (hp : 0 ≤ x.pd) : ((ranked t).filter (fun r => decide (SamePrediction r x))).length = 1 := by
  rw [C26_multiplicity t hok, if_pos]
  by_cases hm : ∃ d ∈ t, d.pd = x.pd ∧ Matches d
  · obtain ⟨d, hd, hpd, hm⟩ := hm
    have := hs x hx d hd hp hpd.symm
    exact ⟨d, hd, ⟨this.1.symm, hpd, this.2.symm⟩, by rw [hpd]; exact hp, Or.inl hm⟩
  · exact ⟨x, hx, ⟨rfl, rfl, rfl⟩, hp, Or.inr (fun d hd hpd hmd => hm ⟨d, hd, hpd, hmd⟩)⟩

/-- A prediction with labels 0 and 1 on a ground truth of label 0. -/
def twoLabels : List Row :=
  [⟨0, 0, 0, 0, 0, 9 / 10, 9 / 10⟩, ⟨0, 0, 0, 0, 1, 9 / 10, 8 / 10⟩]

/-- **C26 is false of the code** for a prediction with two labels one of which matches: the other label
disappears from the ranked cache, so it is not counted as a false positive. -/
theorem C26_violation : ¬ OneRowPerPredictionLabel := by
  intro h
  have h1 := h twoLabels (by decide +kernel) ⟨0, 0, 0, 0, 1, 9 / 10, 8 / 10⟩ (by decide +kernel) (by decide)
  rw [C26_multiplicity _ (by decide +kernel)] at h1
  revert h1
  decide +kernel

/-- A table that meets the hypotheses: two ground truths, three predictions, one of them with two pairs,
one without. -/
example : let t : List Row := [⟨0, 0, 0, 0, 0, 9 / 10, 9 / 10⟩, ⟨0, 1, 0, 1, 0, 1 / 10, 9 / 10⟩,
    ⟨0, 0, 1, 0, 1, 1 / 2, 7 / 10⟩, ⟨0, -1, 2, -1, 1, 0, 1 / 2⟩]
    (∀ r ∈ t, RowOk r) ∧ SingleLabel t ∧ rankPairs t = [⟨0, 0, 0, 0, 0, 9 / 10, 9 / 10⟩, ⟨0, 0, 1, 0, 1, 1 / 2, 7 / 10⟩,
      ⟨0, -1, 2, -1, 1, 0, 1 / 2⟩] := by decide +kernel

/-! ## C27 -/

/-- Same datum, ground truth and ground-truth label. -/
def SameGroundtruth (x y : Row) : Prop := x.datum = y.datum ∧ x.gt = y.gt ∧ x.gl = y.gl

instance (x y : Row) : Decidable (SameGroundtruth x y) := by unfold SameGroundtruth; infer_instance

theorem gtKey_iff {x y : Row} : gtKey x = gtKey y ↔ SameGroundtruth x y := by
  unfold gtKey SameGroundtruth
  simp

/-- The condition under which a ranked row counts as a true positive at IoU threshold `t`
(`computation.py` 394-414, without the score conditions). -/
def countsAt (t : Rat) (r : RRow) : Prop := Matches r.row ∧ t ≤ r.row.iou ∧ r.prev < t

/-- `r` is, after the rows `before`, the first row that matches its ground truth with IoU at least
`t`. -/
def FirstAt (t : Rat) (before : List RRow) (r : RRow) : Prop :=
  Matches r.row ∧ t ≤ r.row.iou ∧ ∀ x ∈ before, SameGroundtruth x.row r.row → Matches x.row → x.row.iou < t

theorem zip_split {rows : List Row} {bs : List Rat} {pre : List RRow} {r : RRow} {post : List RRow}
    (hlen : bs.length = rows.length) (h : List.zipWith RRow.mk rows bs = pre ++ r :: post) :
    rows[pre.length]? = some r.row ∧ bs[pre.length]? = some r.prev ∧
      ∀ j : Nat, j < pre.length → rows[j]? = (pre[j]?).map RRow.row := by
  have hget : ∀ j : Nat, (List.zipWith RRow.mk rows bs)[j]? = (pre ++ r :: post)[j]? := fun j => by rw [h]
  refine ⟨?_, ?_, ?_⟩
  · have := hget pre.length
    rw [List.getElem?_zipWith, List.getElem?_append_right (le_refl _), Nat.sub_self] at this
    cases h1 : rows[pre.length]? with
    | none => rw [h1] at this; simp at this
    | some a =>
      cases h2 : bs[pre.length]? with
      | none => rw [h1, h2] at this; simp at this
      | some b =>
        rw [h1, h2] at this
        simp at this
        rw [← this]
  · have := hget pre.length
    rw [List.getElem?_zipWith, List.getElem?_append_right (le_refl _), Nat.sub_self] at this
    cases h1 : rows[pre.length]? with
    | none => rw [h1] at this; simp at this
    | some a =>
      cases h2 : bs[pre.length]? with
      | none => rw [h1, h2] at this; simp at this
      | some b =>
        rw [h1, h2] at this
        simp at this
        rw [← this]
  · intro j hj
    have := hget j
    rw [List.getElem?_zipWith, List.getElem?_append_left hj] at this
    rw [← this]
    cases h1 : rows[j]? with
    | none => rfl
    | some a =>
      have hlt := (List.getElem?_eq_some_iff.1 h1).1
      rw [← hlen] at hlt
      rw [List.getElem?_eq_getElem hlt]
      rfl

/-- One table: for every list of ranked rows. -/
theorem boundary_first (rows : List Row) (hiou : ∀ r ∈ rows, r.iou ≤ 2) {t : Rat} (ht : 0 < t)
    {pre : List RRow} {r : RRow} {post : List RRow}
    (h : List.zipWith RRow.mk rows (boundaries rows) = pre ++ r :: post) : countsAt t r ↔ FirstAt t pre r := by
  obtain ⟨h1, h2, h3⟩ := zip_split (boundaries_length rows) h
  unfold countsAt FirstAt
  refine and_congr_right (fun hm => and_congr_right (fun hti => ?_))
  rw [boundaries_spec h1 hm.1 hm.2 h2 ht hti (le_trans hti (hiou _ (List.mem_of_getElem? h1)))]
  constructor
  · intro hall x hx hs hmx
    obtain ⟨j, hj, rfl⟩ := List.getElem_of_mem hx
    have hrow := h3 j hj
    rw [List.getElem?_eq_getElem hj] at hrow
    have := hall j hj (mem_gtIndices.2 ⟨_, hrow, gtKey_iff.2 hs, hmx.2⟩)
    unfold iouAt at this
    rw [List.getElem?_map, hrow] at this
    exact this
  · intro hall j hj hmem
    obtain ⟨a, ha, hk, hl⟩ := mem_gtIndices.1 hmem
    have hrow := h3 j hj
    rw [List.getElem?_eq_getElem hj, ha] at hrow
    have ha' : a = (pre[j]).row := by simpa using hrow
    have hs := gtKey_iff.1 hk
    have := hall pre[j] (List.getElem_mem hj) (by rw [← ha']; exact hs) (by
      rw [← ha']; exact ⟨by rw [hs.2.1]; exact hm.1, hl⟩)
    unfold iouAt
    rw [List.getElem?_map, ha]
    show a.iou < t
    rw [ha']
    exact this

/-- **C27 (one table).** In the ranked table of any detailed table, for any positive threshold, a row
counts as a true positive exactly when it is the first one that matches its ground truth with IoU at
least the threshold. -/
theorem C27_table (tbl : List Row) (hiou : ∀ r ∈ tbl, r.iou ≤ 1) {t : Rat} (ht : 0 < t) {pre : List RRow} {r : RRow}
    {post : List RRow} (h : rankTable tbl = pre ++ r :: post) : countsAt t r ↔ FirstAt t pre r := by
  unfold rankTable at h
  dsimp only at h
  refine boundary_first _ ?_ ht h
  intro x hx
  have : x ∈ tbl := by
    rw [rankPairs_eq] at hx
    have := uniqueFirst_mem ((lexsort_perm rankKey _).mem_iff.1 hx)
    unfold kept at this
    exact mem_sortBy.1 (List.mem_of_mem_filter (List.mem_of_mem_filter this))
  have := hiou x this
  linarith

/-- Rows in different tables belong to different datums (C04: the rows of one datum are written by one
call and never split over files). -/
def Aligned (tables : List (List Row)) : Prop :=
  tables.Pairwise (fun a b => ∀ x ∈ a, ∀ y ∈ b, x.datum ≠ y.datum)

theorem rankTable_mem {t : List Row} {r : RRow} (h : r ∈ rankTable t) : r.row ∈ t := by
  have : r.row ∈ ranked t := List.mem_map_of_mem h
  rw [ranked_eq, rankPairs_eq] at this
  have := uniqueFirst_mem ((lexsort_perm rankKey _).mem_iff.1 this)
  unfold kept at this
  exact mem_sortBy.1 (List.mem_of_mem_filter (List.mem_of_mem_filter this))

/-- With aligned tables, the rows of one ground truth come from one table. -/
theorem aligned_filter {tables : List (List Row)} (ha : Aligned tables) {r : RRow}
    (hr : r ∈ (tables.map rankTable).flatten) :
    ∃ tbl ∈ tables, (tables.map rankTable).flatten.filter (fun x => decide (SameGroundtruth x.row r.row))
      = (rankTable tbl).filter (fun x => decide (SameGroundtruth x.row r.row)) := by
  induction tables with
  | nil => simp at hr
  | cons a ts ih =>
    rw [List.map_cons, List.flatten_cons] at hr ⊢
    unfold Aligned at ha
    rw [List.pairwise_cons] at ha
    rw [List.filter_append]
    rcases List.mem_append.1 hr with hra | hrt
    · refine ⟨a, by simp, ?_⟩
      have : (ts.map rankTable).flatten.filter (fun x => decide (SameGroundtruth x.row r.row)) = [] := by
        rw [List.filter_eq_nil_iff]
        intro x hx
        obtain ⟨l, hl, hxl⟩ := List.mem_flatten.1 hx
        obtain ⟨b, hb, rfl⟩ := List.mem_map.1 hl
        have := ha.1 b hb r.row (rankTable_mem hra) x.row (rankTable_mem hxl)
        intro hc
        rw [decide_eq_true_eq] at hc
        exact this hc.1.symm
      rw [this, List.append_nil]
    · obtain ⟨tbl, htbl, he⟩ := ih ha.2 hrt
      refine ⟨tbl, by simp [htbl], ?_⟩
      have : (rankTable a).filter (fun x => decide (SameGroundtruth x.row r.row)) = [] := by
        rw [List.filter_eq_nil_iff]
        intro x hx
        obtain ⟨l, hl, hrl⟩ := List.mem_flatten.1 hrt
        obtain ⟨b, hb, rfl⟩ := List.mem_map.1 hl
        have := ha.1 b hb x.row (rankTable_mem hx) r.row (rankTable_mem hrl)
        intro hc
        rw [decide_eq_true_eq] at hc
        exact this hc.1
      rw [this, List.nil_append, he]

theorem rankTable_sorted (t : List Row) : SortedBy (fun x : RRow => rankKey x.row) (rankTable t) := by
  have := C26_order t
  unfold ranked at this
  rw [List.pairwise_map] at this
  exact this.imp (fun h => rankKey_le.2 h)

/-- A property of a row and the rows before it that only looks at rows of the same ground truth can be
checked after dropping the other rows. -/
theorem firstAt_filter {t : Rat} {pre : List RRow} {r : RRow} :
    FirstAt t pre r ↔ FirstAt t (pre.filter (fun x => decide (SameGroundtruth x.row r.row))) r := by
  unfold FirstAt
  simp only [List.mem_filter, decide_eq_true_eq, and_imp]
  refine and_congr_right (fun _ => and_congr_right (fun _ => ?_))
  exact ⟨fun h x hx _ => h x hx, fun h x hx hs => h x hx hs hs⟩

theorem filter_split {α : Type} {p : α → Bool} {l : List α} {a : List α} {x : α} {b : List α}
    (h : l.filter p = a ++ x :: b) : ∃ a' b', l = a' ++ x :: b' ∧ a'.filter p = a := by
  rw [List.filter_eq_append_iff] at h
  obtain ⟨l1, l2, rfl, h1, h2⟩ := h
  rw [List.filter_eq_cons_iff] at h2
  obtain ⟨m1, m2, rfl, h3, h4, h5⟩ := h2
  refine ⟨l1 ++ m1, m2, by simp, ?_⟩
  rw [List.filter_append, h1, List.filter_eq_nil_iff.2 h3, List.append_nil]

/-- The rows read from the ranked cache, for a cache of several tables: any sequence ordered by the sort
arguments that keeps the order of equal rows. -/
theorem merged_first {tables : List (List Row)} (ha : Aligned tables) (hiou : ∀ tbl ∈ tables, ∀ r ∈ tbl, r.iou ≤ 1)
    {out : List RRow} (hs : SortedBy (fun x : RRow => rankKey x.row) out)
    (hst : @StableOf RRow (List Rat) LinearOrder.toDecidableEq (fun x : RRow => rankKey x.row) (tables.map rankTable).flatten out) {t : Rat} (ht : 0 < t)
    {pre : List RRow} {r : RRow} {post : List RRow} (h : out = pre ++ r :: post) : countsAt t r ↔ FirstAt t pre r := by
  have hr : r ∈ (tables.map rankTable).flatten := hst.perm.mem_iff.1 (by rw [h]; simp)
  obtain ⟨tbl, htbl, he⟩ := aligned_filter ha hr
  have hsame : out.filter (fun x => decide (SameGroundtruth x.row r.row))
      = (rankTable tbl).filter (fun x => decide (SameGroundtruth x.row r.row)) := by
    apply sorted_stable_unique (key := fun x : RRow => rankKey x.row)
    · exact List.Pairwise.filter _ hs
    · exact List.Pairwise.filter _ (rankTable_sorted tbl)
    · intro k
      rw [List.filter_filter, List.filter_filter]
      have e : ∀ (p q : RRow → Bool) (l : List RRow), l.filter (fun a => p a && q a) = (l.filter p).filter q := by
        intro p q l
        rw [List.filter_filter]
        congr 1
        funext a
        exact Bool.and_comm _ _
      rw [e, hst k, ← e, ← List.filter_filter, he, List.filter_filter]
  have hsplit : (rankTable tbl).filter (fun x => decide (SameGroundtruth x.row r.row))
      = pre.filter (fun x => decide (SameGroundtruth x.row r.row)) ++ r :: post.filter (fun x => decide (SameGroundtruth x.row r.row)) := by
    rw [← hsame, h, List.filter_append, List.filter_cons, if_pos (by simp [SameGroundtruth])]
  obtain ⟨a', b', h1, h2⟩ := filter_split hsplit
  rw [C27_table tbl (hiou tbl htbl) ht h1, firstAt_filter, h2, ← firstAt_filter]

/-- **C27.** For any detailed cache with datum-aligned tables, the ranked cache on disk, written by the
merge sort for any batch size and any file size, reads as a sequence in which, for every positive
threshold, a row counts as a true positive exactly when it is the first row that matches its ground truth
with IoU at least the threshold. -/
theorem C27_first_match (tables : List (List Row)) (ha : Aligned tables) (hiou : ∀ tbl ∈ tables, ∀ r ∈ tbl, r.iou ≤ 1)
    (batching : List RRow → List (List RRow)) (hb : IsBatching batching) (batchSize rowsPerFile : Nat) :
    ∃ out, ReadsAs (sortToFile (fun x : RRow => rankKey x.row) rankTable batching tables
        (FileW.create batchSize rowsPerFile)) out ∧
      out.Perm (tables.map rankTable).flatten ∧
      ∀ t, 0 < t → ∀ pre r post, out = pre ++ r :: post → (countsAt t r ↔ FirstAt t pre r) := by
  obtain ⟨out, h1, h2, h3⟩ := sortToFile_reads (fun x : RRow => rankKey x.row) rankTable batching hb rankTable_sorted
    tables batchSize rowsPerFile
  exact ⟨out, h1, h3.perm, fun t ht pre r post h => merged_first ha hiou h2 h3 ht h⟩

/-- **C27 (at most once).** Where true positives are first matches, a ground truth has at most one of
them. -/
theorem C27_at_most_once {out : List RRow} {t : Rat}
    (h : ∀ pre r post, out = pre ++ r :: post → (countsAt t r ↔ FirstAt t pre r)) :
    out.Pairwise (fun x y => countsAt t x → countsAt t y → ¬ SameGroundtruth x.row y.row) := by
  rw [List.pairwise_iff_getElem]
  intro i j hi hj hij hx hy hs
  have he : out = out.take j ++ out[j] :: out.drop (j + 1) := by simp
  have hxa : out[i] ∈ out.take j := by
    rw [List.mem_take_iff_getElem]
    exact ⟨i, by omega, rfl⟩
  have := ((h _ _ _ he).1 hy).2.2 _ hxa hs hx.1
  have := hx.2.1
  linarith

theorem assign_nonneg (iv : List (Nat × Rat)) (b : List Rat) (hb : ∀ v ∈ b, 0 ≤ v) (hiv : ∀ x ∈ iv, 0 ≤ x.2) :
    ∀ v ∈ assign b iv, 0 ≤ v := by
  induction iv generalizing b with
  | nil => exact hb
  | cons x iv ih =>
    apply ih (b.set x.1 x.2)
    · intro v hv
      rcases List.mem_or_eq_of_mem_set hv with h | rfl
      · exact hb v h
      · exact hiv x (by simp)
    · exact fun y hy => hiv y (by simp [hy])

theorem boundaries_nonneg (rows : List Row) (hiou : ∀ r ∈ rows, 0 ≤ r.iou) : ∀ v ∈ boundaries rows, 0 ≤ v := by
  unfold boundaries
  dsimp only
  have hat : ∀ i, 0 ≤ iouAt rows i := by
    intro i
    unfold iouAt
    rw [List.getElem?_map]
    cases h : rows[i]? with
    | none => exact le_refl _
    | some r => exact hiou r (List.mem_of_getElem? h)
  have hb : ∀ v ∈ List.replicate rows.length (2 : Rat), 0 ≤ v := by
    intro v hv
    rw [(List.mem_replicate.1 hv).2]
    norm_num
  generalize List.replicate rows.length (2 : Rat) = b at hb
  generalize ((rows.filter (fun r => decide (r.gt ≥ 0))).map gtKey).dedup.insertionSort (· ≤ ·) = ks
  induction ks generalizing b with
  | nil => exact hb
  | cons k ks ih =>
    rw [List.foldl_cons]
    apply ih
    rw [boundaryStep_eq]
    apply assign_nonneg _ _ hb
    intro x hx
    cases hg : gtIndices rows k with
    | nil => rw [hg] at hx; simp [boundaryPairs] at hx
    | cons i rest =>
      rw [hg] at hx
      unfold boundaryPairs at hx
      rcases List.mem_cons.1 hx with rfl | hx
      · exact le_refl _
      · obtain ⟨a, y, b', _, _, _, h3⟩ := mem_recs _ _ _ _ hx
        by_contra hc
        have := ((h3 0).1 (not_le.1 hc)).1
        have := hat i
        linarith

/-- **C27 (threshold zero).** At threshold 0 or below no row ever counts as a true positive, even a
perfect match: the boundaries are not negative. -/
theorem C27_zero_threshold (tbl : List Row) (hiou : ∀ r ∈ tbl, 0 ≤ r.iou) {r : RRow} (hr : r ∈ rankTable tbl)
    {t : Rat} (ht : t ≤ 0) : ¬ countsAt t r := by
  rintro ⟨_, _, h3⟩
  have hmem : r.prev ∈ boundaries (rankPairs (sortBy rankKey tbl)) := by
    unfold rankTable at hr
    dsimp only at hr
    obtain ⟨i, hi, rfl⟩ := List.getElem_of_mem hr
    rw [List.getElem_zipWith]
    exact List.getElem_mem _
  have := boundaries_nonneg _ (fun x hx => hiou x ?_) r.prev hmem
  · linarith
  · rw [← ranked_eq] at hx
    obtain ⟨y, hy, rfl⟩ := List.mem_map.1 hx
    exact rankTable_mem hy

/-- Three predictions on one ground truth with rising IoU in score order: each is the first match for its
own range of thresholds. -/
example : let rows : List Row := [⟨0, 0, 0, 0, 0, 3 / 10, 9 / 10⟩, ⟨0, 0, 1, 0, 0, 2 / 10, 8 / 10⟩, ⟨0, 0, 2, 0, 0, 7 / 10, 1 / 2⟩]
    rankPairs rows = rows ∧ boundaries rows = [0, 2, 3 / 10] ∧ (∀ r ∈ rows, r.iou ≤ 1) := by decide +kernel

end Verif.Detection
