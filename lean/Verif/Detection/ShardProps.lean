import Verif.Detection.ReorderProps

/-!
# C84: detection counts add up over shards

The counts of a dataset are the sums, over its detections, of the counts of the detection evaluated alone. So the counts of
shards add up to those of the whole dataset.
-/

namespace Verif.Detection

open Verif.Cache (sortBy)

/-! ## Counts of rows -/

/-- Ground truths of a label. -/
def gtOf (l : Int) (rows : List Row) : Nat := distinct Row.gt (rows.filter (fun r => decide (0 ≤ r.gt ∧ r.gl = l)))

/-- Ranked predictions of a label with a passing score. -/
def activeOf (s : Rat) (l : Int) (rows : List Row) : Nat :=
  ((chosen rows).filter (fun r => decide (r.pl = l ∧ s ≤ r.score ∧ EPSILON < r.score))).length

/-- Ground truths of a label that are covered. -/
def foundOf (t s : Rat) (l : Int) (rows : List Row) : Nat :=
  if 0 < t then distinct (fun r : Row => (r.datum, r.gt)) ((chosen rows).filter (fun r =>
    decide ((r.pl = l ∧ s ≤ r.score ∧ EPSILON < r.score) ∧ (0 ≤ r.gt ∧ r.gl = r.pl) ∧ t ≤ r.iou))) else 0

theorem counts_canonical {rows : List Row} {tables : List (List Row)} (h : Divides rows tables) (hok : RowsOk rows) {out : List RRow}
    (hr : RankedOf tables out) {chunks : List (List RRow)} (hc : chunks.flatten = out) (t s : Rat) (l : Int) :
    gtCount tables l = gtOf l rows ∧ tpTotal t s chunks l = foundOf t s l rows ∧
    tpTotal t s chunks l + fpTotal t s chunks l = activeOf s l rows := by
  have hperm : (out.map RRow.row).Perm (chosen rows) := by
    rw [ranked_canonical h hok hr]
    exact List.perm_insertionSort _ _
  have hlen : ∀ (P : Row → Bool), (out.filter (fun r => P r.row)).map RRow.row = (out.map RRow.row).filter P := by
    intro P
    rw [List.filter_map]
    rfl
  refine ⟨?_, ?_, ?_⟩
  · rw [C28_groundtruths (divides_ok h hok)]
    apply dedup_length_congr
    intro x
    simp only [List.mem_map, List.mem_filter, divides_mem h]
  · unfold foundOf
    by_cases ht : 0 < t
    · rw [C28_tp (divides_ok h hok) hr ht s l chunks hc, if_pos ht]
      have g1 : ((out.filter (fun r => decide (Active s l r ∧ Covers t r))).map (fun r => (r.row.datum, r.row.gt))).dedup.length
          = distinct (fun r : Row => (r.datum, r.gt)) ((out.map RRow.row).filter (fun r =>
            decide ((r.pl = l ∧ s ≤ r.score ∧ EPSILON < r.score) ∧ (0 ≤ r.gt ∧ r.gl = r.pl) ∧ t ≤ r.iou))) := by
        unfold distinct
        rw [← hlen, List.map_map]
        rfl
      rw [g1]
      exact distinct_perm (fun v => ((hperm.filter _).map _).mem_iff)
    · rw [if_neg ht]
      have hf := outer_first (divides_ok h hok) hr t
      rw [tpTotal_single s l chunks (by rw [hc]; exact single_of hf), hc, List.length_eq_zero_iff, List.filter_eq_nil_iff]
      intro r hrm hcon
      obtain ⟨pre, post, he⟩ := List.append_of_mem hrm
      rw [Bool.and_eq_true] at hcon
      unfold tpInner at hcon
      rw [Bool.and_eq_true] at hcon
      exact ht ((hf pre r post he).1 hcon.2.1).1
  · rw [C28_tp_fp, hc]
    unfold activeOf
    rw [← (hperm.filter _).length_eq, ← hlen, List.length_map]
    rfl

/-! ## Over the detections -/

theorem gtOf_flatten (l : Int) {pieces : List (List Row)} (h : Owned pieces.flatten)
    (hd : pieces.Pairwise (fun a b => ∀ x ∈ a, ∀ y ∈ b, x.datum < y.datum)) :
    gtOf l pieces.flatten = (pieces.map (gtOf l)).sum := by
  induction pieces with
  | nil => rfl
  | cons p ps ih =>
    rw [List.pairwise_cons] at hd
    rw [List.flatten_cons] at h ⊢
    rw [List.map_cons, List.sum_cons, ← ih (h.subset (fun x hx => by simp [hx])) hd.2]
    unfold gtOf
    rw [List.filter_append, distinct_append]
    intro x hx y hy he
    rw [List.mem_filter, decide_eq_true_eq] at hx hy
    obtain ⟨q, hq, hyq⟩ := List.mem_flatten.1 hy.1
    have := hd.1 q hq x hx.1 y hyq
    have := h.gts x (by simp [hx.1]) y (by rw [List.mem_append]; exact Or.inr hy.1) hx.2.1 he
    omega

theorem activeOf_flatten (s : Rat) (l : Int) {pieces : List (List Row)} (h : Owned pieces.flatten)
    (hd : pieces.Pairwise (fun a b => ∀ x ∈ a, ∀ y ∈ b, x.datum < y.datum)) :
    activeOf s l pieces.flatten = (pieces.map (activeOf s l)).sum := by
  unfold activeOf
  rw [chosen_flatten h.pds hd, List.filter_flatten, List.length_flatten, List.map_map, List.map_map]
  rfl

theorem foundOf_flatten (t s : Rat) (l : Int) {pieces : List (List Row)} (h : Owned pieces.flatten)
    (hd : pieces.Pairwise (fun a b => ∀ x ∈ a, ∀ y ∈ b, x.datum < y.datum)) :
    foundOf t s l pieces.flatten = (pieces.map (foundOf t s l)).sum := by
  unfold foundOf
  by_cases ht : 0 < t
  · simp only [if_pos ht]
    rw [chosen_flatten h.pds hd]
    clear h
    induction pieces with
    | nil => rfl
    | cons p ps ih =>
      rw [List.pairwise_cons] at hd
      rw [List.map_cons, List.flatten_cons, List.filter_append, distinct_append, ih hd.2, List.map_cons, List.sum_cons]
      intro x hx y hy he
      have hx := chosen_mem (List.mem_filter.1 hx).1
      obtain ⟨q', hq', hyq⟩ := List.mem_flatten.1 (List.mem_filter.1 hy).1
      obtain ⟨q, hq, rfl⟩ := List.mem_map.1 hq'
      have := hd.1 q hq x hx y (chosen_mem hyq)
      have := congrArg Prod.fst he
      simp only at this
      omega
  · simp [if_neg ht]

theorem additive_flatten {F : List Row → Nat} (hF : Additive F) {pieces : List (List Row)} (h : Owned pieces.flatten)
    (hd : pieces.Pairwise (fun a b => ∀ x ∈ a, ∀ y ∈ b, x.datum < y.datum)) :
    F (sortBy rankKey pieces.flatten) = (pieces.map (fun p => F (sortBy rankKey p))).sum := by
  rw [← additive_total hF h (pieces_divides pieces hd), List.map_map]
  rfl

/-! ## Under renaming -/

theorem Renames.gtOf {f : Row → Row} {rows : List Row} (h : Renames f rows) {l l' : Int} (hl : ∀ r ∈ rows, (f r).gl = l' ↔ r.gl = l) :
    gtOf l' (rows.map f) = gtOf l rows := by
  unfold Verif.Detection.gtOf
  rw [List.filter_map]
  have e : rows.filter ((fun r => decide (0 ≤ r.gt ∧ r.gl = l')) ∘ f) = rows.filter (fun r => decide (0 ≤ r.gt ∧ r.gl = l)) := by
    apply List.filter_congr
    intro r hr
    simp only [Function.comp_apply, hl r hr, h.gt0 r hr]
  rw [e]
  apply distinct_map
  intro x hx y hy
  exact h.gt x (List.mem_filter.1 hx).1 y (List.mem_filter.1 hy).1

theorem Renames.chosen_filter {f : Row → Row} {rows : List Row} (h : Renames f rows) {P P' : Row → Bool} (hP : ∀ r ∈ rows, P' (f r) = P r) :
    ((chosen (rows.map f)).filter P').Perm (((chosen rows).filter P).map f) := by
  refine (h.chosen_perm.filter P').trans ?_
  rw [List.filter_map]
  have : (chosen rows).filter (P' ∘ f) = (chosen rows).filter P := List.filter_congr (fun r hr => hP r (chosen_mem hr))
  rw [this]

theorem Renames.activeOf {f : Row → Row} {rows : List Row} (h : Renames f rows) (s : Rat) {l l' : Int}
    (hl : ∀ r ∈ rows, (f r).pl = l' ↔ r.pl = l) : activeOf s l' (rows.map f) = activeOf s l rows := by
  unfold Verif.Detection.activeOf
  rw [(h.chosen_filter (P := fun r => decide (r.pl = l ∧ s ≤ r.score ∧ EPSILON < r.score)) (fun r hr => by
    simp only [hl r hr, h.score])).length_eq, List.length_map]

theorem Renames.foundOf {f : Row → Row} {rows : List Row} (h : Renames f rows) (t s : Rat) {l l' : Int}
    (hl : ∀ r ∈ rows, (f r).pl = l' ↔ r.pl = l) : foundOf t s l' (rows.map f) = foundOf t s l rows := by
  unfold Verif.Detection.foundOf
  by_cases ht : 0 < t
  · rw [if_pos ht, if_pos ht]
    have hq := h.chosen_filter (P := fun r : Row => decide ((r.pl = l ∧ s ≤ r.score ∧ EPSILON < r.score) ∧ (0 ≤ r.gt ∧ r.gl = r.pl) ∧ t ≤ r.iou))
      (P' := fun r : Row => decide ((r.pl = l' ∧ s ≤ r.score ∧ EPSILON < r.score) ∧ (0 ≤ r.gt ∧ r.gl = r.pl) ∧ t ≤ r.iou)) (fun r hr => by
        simp only [hl r hr, h.score, h.iou, h.gt0 r hr, h.lab r hr])
    rw [distinct_perm (fun v => (hq.map _).mem_iff)]
    apply distinct_map
    intro x hx y hy
    have hx := chosen_mem (List.mem_filter.1 hx).1
    have hy := chosen_mem (List.mem_filter.1 hy).1
    rw [Prod.mk.injEq, Prod.mk.injEq, h.datum x hx y hy, h.gt x hx y hy]
  · rw [if_neg ht, if_neg ht]

/-! ## One detection alone -/

theorem historyOk_sub {H H' : History} (h : HistoryOk H) (hs : ∀ x ∈ H', x ∈ H) : HistoryOk H' :=
  ⟨fun x hx => h.gtLabel x (hs x hx), fun x hx => h.pdLabel x (hs x hx), fun x hx => h.iou x (hs x hx)⟩

theorem HistoryOk.detOk {H : History} (h : HistoryOk H) {x : Det × (Nat → Nat → Rat)} (hx : x ∈ H) : DetOk x.1 :=
  ⟨fun a ha he => by have h1 := h.gtLabel x hx a ha; simp [he] at h1, h.pdLabel x hx⟩

/-- The labels of a part are labels of the whole. -/
theorem labels_sub {calls part : List History} (hH : HistoryOk calls.flatten) (hs : ∀ x ∈ part.flatten, x ∈ calls.flatten) :
    ∀ v ∈ (Loader.init.addAll part).labels, v ∈ (Loader.init.addAll calls).labels := by
  intro v hv
  obtain ⟨x, hx, hst⟩ := labels_used part v hv
  obtain ⟨k, hk⟩ := List.mem_iff_getElem?.1 (hs x hx)
  obtain ⟨r, hr, hv⟩ := step_label_row hst (hH.detOk (hs x hx)) (Loader.init.addAll calls).labels k (gtOffset calls.flatten k) (pdOffset calls.flatten k)
  obtain ⟨h1, h2⟩ := isRow_labels calls hk hr
  rcases hv with h | h
  · exact h1 v h
  · exact h2 v h

theorem sum_subperm {α : Type} {a b : List α} (h : a.Subperm b) (f : α → Nat) : (a.map f).sum ≤ (b.map f).sum := by
  obtain ⟨c, hc, hs⟩ := h
  rw [← (hc.map f).sum_eq]
  exact (hs.map f).sum_le_sum (fun _ _ => Nat.zero_le _)

/-- A part of a dataset that fits the id ranges fits them too. -/
theorem sizesOk_sub {calls part : List History} (hH : HistoryOk calls.flatten) (hS : SizesOk (Loader.init.addAll calls))
    (hs : part.flatten.Subperm calls.flatten) : SizesOk (Loader.init.addAll part) := by
  have i := linv_addAll calls
  have j := linv_addAll part
  refine ⟨?_, ?_, ?_, ?_⟩
  · refine le_trans ?_ hS.labels
    exact (j.nodup.subperm (labels_sub hH (fun x hx => hs.subset hx))).length_le
  · refine le_trans ?_ hS.gts
    rw [i.gts, j.gts]
    unfold gtOffset
    rw [List.take_length, List.take_length]
    exact sum_subperm hs _
  · refine le_trans ?_ hS.pds
    rw [i.pds, j.pds]
    unfold pdOffset
    rw [List.take_length, List.take_length]
    exact sum_subperm hs _
  · refine le_trans ?_ hS.datums
    rw [i.datums, j.datums]
    exact hs.length_le

/-- The rows of a detection in the dataset are the renamed rows of the detection alone. -/
theorem piece_alone {calls : List History} (hH : HistoryOk calls.flatten) (hS : SizesOk (Loader.init.addAll calls)) {k : Nat}
    {x : Det × (Nat → Nat → Rat)} (hk : calls.flatten[k]? = some x) :
    ∃ f, Renames f (loaderRows [[x]]) ∧
      (rowsOf (Loader.init.addAll calls).labels x.1 x.2 k (gtOffset calls.flatten k) (pdOffset calls.flatten k)).map FRow.row = (loaderRows [[x]]).map f ∧
      ∀ v : String, ∀ r ∈ loaderRows [[x]], ((f r).gl = labelId calls v ↔ r.gl = labelId [[x]] v) ∧ ((f r).pl = labelId calls v ↔ r.pl = labelId [[x]] v) := by
  have hxm : x ∈ calls.flatten := List.mem_of_getElem? hk
  have hH1 : HistoryOk ([[x]] : List History).flatten := historyOk_sub hH (fun y hy => by rw [List.mem_singleton.1 hy]; exact hxm)
  have hS1 : SizesOk (Loader.init.addAll [[x]]) := sizesOk_sub hH hS (List.singleton_subperm_iff.2 hxm)
  have hfl : ([[x]] : List History).flatten = [x] := rfl
  have hσ : ∀ i < ([[x]] : List History).flatten.length, (fun _ => k) i < calls.flatten.length ∧ calls.flatten[(fun _ => k) i]? = ([[x]] : List History).flatten[i]? := by
    intro i hi
    rw [hfl] at hi
    have : i = 0 := by simpa using hi
    subst this
    exact ⟨getElem?_lt hk, hk⟩
  have h0 : ([[x]] : List History).flatten[0]? = some x := rfl
  have hrows : (rowsOf (Loader.init.addAll calls).labels x.1 x.2 k (gtOffset calls.flatten k) (pdOffset calls.flatten k)).map FRow.row
      = (loaderRows [[x]]).map (moveOf (Loader.init.addAll [[x]]).labels (Loader.init.addAll calls).labels ([[x]] : List History).flatten calls.flatten (fun _ => k)) := by
    have hone : loaderRows [[x]] = (rowsOf (Loader.init.addAll [[x]]).labels x.1 x.2 0 (gtOffset ([[x]] : List History).flatten 0)
        (pdOffset ([[x]] : List History).flatten 0)).map FRow.row := by
      rw [← loaderPieces_flatten, loaderPieces_eq]
      exact List.append_nil _
    rw [hone]
    rw [← rowsOf_move (Loader.init.addAll [[x]]).labels (Loader.init.addAll calls).labels x.1 x.2 0 (gtOffset ([[x]] : List History).flatten 0)
      (pdOffset ([[x]] : List History).flatten 0) k (gtOffset calls.flatten k) (pdOffset calls.flatten k), List.map_map, List.map_map]
    apply List.map_congr_left
    intro f hf
    rw [mem_rowsOf] at hf
    exact (moveOf_row (σ := fun _ => k) h0 hf).symm
  refine ⟨_, ?_, hrows, ?_⟩
  · apply loader_renames _ hσ (loader_rowOk hH1 hS1) (loader_rowOk hH hS)
    · intro r hr
      rw [← loaderPieces_flatten, loaderPieces_eq, List.mem_flatten]
      refine ⟨_, List.mem_map_of_mem (List.mem_range.2 (getElem?_lt hk)), ?_⟩
      simp only [hk]
      rw [hrows]
      exact List.mem_map_of_mem hr
    · intro i hi j hj _
      rw [hfl] at hi hj
      simp at hi hj
      omega
  · intro v r hr
    obtain ⟨k', y, og, op, h⟩ := move_spec hσ hr
    unfold labelId
    have e : ∀ L : List String, ((L.idxOf v : Nat) : Int) = idOf L (some v) := fun _ => rfl
    rw [h.gl.1, h.gl.2, h.pl.1, h.pl.2, e, e, idOf_inj h.og1, idOf_inj h.og2, idOf_inj h.op1, idOf_inj h.op2]
    exact ⟨Iff.rfl, Iff.rfl⟩

/-- A count that adds up over the rows of detections and does not see the renaming is the sum over the detections. -/
theorem sum_alone {calls : List History} (hH : HistoryOk calls.flatten) (hS : SizesOk (Loader.init.addAll calls)) (F : List History → List Row → Nat)
    (hadd : F calls (loaderPieces calls).flatten = ((loaderPieces calls).map (F calls)).sum)
    (hren : ∀ (x : Det × (Nat → Nat → Rat)) (f : Row → Row), Renames f (loaderRows [[x]]) → Owned (loaderRows [[x]]) → Owned ((loaderRows [[x]]).map f) →
      (∀ v : String, ∀ r ∈ loaderRows [[x]], ((f r).gl = labelId calls v ↔ r.gl = labelId [[x]] v) ∧ ((f r).pl = labelId calls v ↔ r.pl = labelId [[x]] v)) →
      F calls ((loaderRows [[x]]).map f) = F [[x]] (loaderRows [[x]])) :
    F calls (loaderRows calls) = (calls.flatten.map (fun x => F [[x]] (loaderRows [[x]]))).sum := by
  obtain ⟨_, ho⟩ := loader_ok hH hS
  rw [← loaderPieces_flatten, hadd, loaderPieces_eq, List.map_map]
  congr 1
  apply List.ext_getElem
  · rw [List.length_map, List.length_map, List.length_range]
  · intro k h1 h2
    have hk : k < calls.flatten.length := by rwa [List.length_map] at h2
    have hkx := List.getElem?_eq_getElem hk
    simp only [List.getElem_map, List.getElem_range, Function.comp_apply, hkx]
    obtain ⟨f, hf, he, hl⟩ := piece_alone hH hS hkx
    rw [he]
    apply hren _ f hf _ _ hl
    · have hxm : calls.flatten[k] ∈ calls.flatten := List.getElem_mem hk
      exact (loader_ok (historyOk_sub hH (fun y hy => by rw [List.mem_singleton.1 hy]; exact hxm)) (sizesOk_sub (part := [[calls.flatten[k]]]) hH hS (List.singleton_subperm_iff.2 hxm))).2
    · apply ho.subset
      intro r hr
      rw [← he] at hr
      rw [← loaderPieces_flatten, loaderPieces_eq, List.mem_flatten]
      refine ⟨_, List.mem_map_of_mem (List.mem_range.2 hk), ?_⟩
      simpa only [hkx] using hr

/-! ## C84 -/

/-- An evaluator that was built from the given calls, with any storage of the detailed and of the ranked cache. -/
structure Built where
  calls : List History
  tables : List (List FRow)
  chunks : List (List RRow)
  stored : StoredSorted (Loader.init.addAll calls).rows tables
  ranked : RankedOf (rowsIn tables) chunks.flatten

/-- Ground truths of label `v`. -/
def Built.gt (e : Built) (v : String) : Nat := gtCount (rowsIn e.tables) (labelId e.calls v)
/-- True positives of label `v` at IoU threshold `t` and score threshold `s`. -/
def Built.tp (e : Built) (t s : Rat) (v : String) : Nat := tpTotal t s e.chunks (labelId e.calls v)
/-- False positives. -/
def Built.fp (e : Built) (t s : Rat) (v : String) : Nat := fpTotal t s e.chunks (labelId e.calls v)
/-- False negatives, as `uint64`. -/
def Built.fn (e : Built) (t s : Rat) (v : String) : Nat := fnTotal t s (rowsIn e.tables) e.chunks (labelId e.calls v)
/-- The cell of the confusion matrix for ground truth label `g` and predicted label `p`. -/
def Built.cell (e : Built) (t s : Rat) (g p : String) : Nat := cmTotal (rowsIn e.tables) t s (labelId e.calls g) (labelId e.calls p)
/-- Unmatched ground truths of label `v`. -/
def Built.missed (e : Built) (t s : Rat) (v : String) : Nat := unmatchedGtTotal (rowsIn e.tables) t s (labelId e.calls v)
/-- Unmatched predictions of label `v`. -/
def Built.spurious (e : Built) (t s : Rat) (v : String) : Nat := unmatchedPdTotal (rowsIn e.tables) t s (labelId e.calls v)

theorem Built.counts_alone (e : Built) (hH : HistoryOk e.calls.flatten) (hS : SizesOk (Loader.init.addAll e.calls)) (t s : Rat) (v : String) :
    e.gt v = (e.calls.flatten.map (fun x => gtOf (labelId [[x]] v) (loaderRows [[x]]))).sum ∧
    e.tp t s v = (e.calls.flatten.map (fun x => foundOf t s (labelId [[x]] v) (loaderRows [[x]]))).sum ∧
    e.tp t s v + e.fp t s v = (e.calls.flatten.map (fun x => activeOf s (labelId [[x]] v) (loaderRows [[x]]))).sum := by
  obtain ⟨hok, ho⟩ := loader_ok hH hS
  obtain ⟨h1, h2, h3⟩ := counts_canonical (loader_divides e.stored) hok e.ranked rfl t s (labelId e.calls v)
  have hasc := loaderPieces_asc e.calls
  rw [← loaderPieces_flatten] at ho
  refine ⟨h1.trans ?_, h2.trans ?_, h3.trans ?_⟩
  · exact sum_alone hH hS (fun c rows => gtOf (labelId c v) rows) (gtOf_flatten _ ho hasc) (fun x f hf _ _ hl => hf.gtOf (fun r hr => (hl v r hr).1))
  · exact sum_alone hH hS (fun c rows => foundOf t s (labelId c v) rows) (foundOf_flatten _ _ _ ho hasc)
      (fun x f hf _ _ hl => hf.foundOf t s (fun r hr => (hl v r hr).2))
  · exact sum_alone hH hS (fun c rows => activeOf s (labelId c v) rows) (activeOf_flatten _ _ ho hasc)
      (fun x f hf _ _ hl => hf.activeOf s (fun r hr => (hl v r hr).2))

theorem Built.cm_alone (e : Built) (hH : HistoryOk e.calls.flatten) (hS : SizesOk (Loader.init.addAll e.calls)) (t s : Rat) :
    (∀ g p, e.cell t s g p = (e.calls.flatten.map (fun x => cmCell (sortBy rankKey (loaderRows [[x]])) t s (labelId [[x]] g) (labelId [[x]] p))).sum) ∧
    (∀ v, e.missed t s v = (e.calls.flatten.map (fun x => unmatchedGt (sortBy rankKey (loaderRows [[x]])) t s (labelId [[x]] v))).sum) ∧
    (∀ v, e.spurious t s v = (e.calls.flatten.map (fun x => unmatchedPd (sortBy rankKey (loaderRows [[x]])) t s (labelId [[x]] v))).sum) := by
  obtain ⟨_, ho⟩ := loader_ok hH hS
  have hd := loader_divides e.stored
  have hasc := loaderPieces_asc e.calls
  have ho' := ho
  rw [← loaderPieces_flatten] at ho'
  have hsub : ∀ {rows : List Row}, ∀ r ∈ sortBy rankKey rows, r ∈ rows := fun r hr => mem_sortBy.1 hr
  have hown : ∀ {rows : List Row} {f : Row → Row}, Owned (rows.map f) → Owned ((sortBy rankKey rows).map f) := by
    intro rows f h
    apply h.subset
    intro r hr
    obtain ⟨q, hq, rfl⟩ := List.mem_map.1 hr
    exact List.mem_map_of_mem (mem_sortBy.1 hq)
  refine ⟨fun g p => ?_, fun v => ?_, fun v => ?_⟩
  · refine (additive_total (additive_cm t s _ _) ho hd).trans ?_
    refine sum_alone hH hS (fun c rows => cmCell (sortBy rankKey rows) t s (labelId c g) (labelId c p)) (additive_flatten (additive_cm t s _ _) ho' hasc) ?_
    intro x f hf h1 h2 hl
    rw [sortBy_map hf.key]
    exact (hf.subset hsub).cmCell (h1.subset hsub) (hown h2) t s (fun r hr => (hl g r (hsub r hr)).1) (fun r hr => (hl p r (hsub r hr)).2)
  · refine (additive_total (additive_gt t s _) ho hd).trans ?_
    refine sum_alone hH hS (fun c rows => unmatchedGt (sortBy rankKey rows) t s (labelId c v)) (additive_flatten (additive_gt t s _) ho' hasc) ?_
    intro x f hf h1 h2 hl
    rw [sortBy_map hf.key]
    exact (hf.subset hsub).unmatchedGt (h1.subset hsub) (hown h2) t s (fun r hr => (hl v r (hsub r hr)).1)
  · refine (additive_total (additive_pd t s _) ho hd).trans ?_
    refine sum_alone hH hS (fun c rows => unmatchedPd (sortBy rankKey rows) t s (labelId c v)) (additive_flatten (additive_pd t s _) ho' hasc) ?_
    intro x f hf h1 h2 hl
    rw [sortBy_map hf.key]
    exact (hf.subset hsub).unmatchedPd (h1.subset hsub) (hown h2) t s (fun r hr => (hl v r (hsub r hr)).2)

/-- The unsigned subtraction of the false negatives does not wrap. -/
theorem Built.fn_eq (e : Built) (hH : HistoryOk e.calls.flatten) (hS : SizesOk (Loader.init.addAll e.calls)) (t s : Rat) (v : String) :
    e.fn t s v + e.tp t s v = e.gt v := by
  obtain ⟨hok, ho⟩ := loader_ok hH hS
  have hd := loader_divides e.stored
  refine C28_fn (divides_ok hd hok) e.ranked t s (labelId e.calls v) e.chunks rfl ?_
  rw [(counts_canonical hd hok e.ranked rfl t s (labelId e.calls v)).1]
  unfold gtOf distinct
  rw [← List.card_toFinset]
  refine lt_of_le_of_lt (Finset.card_le_card (t := Finset.Ico 0 (2 ^ 31)) ?_) (by rw [Int.card_Ico]; norm_num)
  intro z hz
  rw [List.mem_toFinset, List.mem_map] at hz
  obtain ⟨r, hr, rfl⟩ := hz
  rw [List.mem_filter, decide_eq_true_eq] at hr
  have := (ho.ids r hr.1).1
  rw [Finset.mem_Ico]
  refine ⟨hr.2.1, ?_⟩
  rcases this with h | h
  · omega
  · exact h.2

theorem sum_shards (f : Det × (Nat → Nat → Rat) → Nat) {whole : Built} {shards : List Built}
    (hp : whole.calls.flatten.Perm (shards.map (fun e => e.calls.flatten)).flatten) :
    (whole.calls.flatten.map f).sum = (shards.map (fun e => (e.calls.flatten.map f).sum)).sum := by
  rw [(hp.map f).sum_eq, List.map_flatten, List.sum_flatten, List.map_map, List.map_map]
  rfl

theorem shard_ok {whole : Built} {shards : List Built} (hp : whole.calls.flatten.Perm (shards.map (fun e => e.calls.flatten)).flatten)
    (hH : HistoryOk whole.calls.flatten) (hS : SizesOk (Loader.init.addAll whole.calls)) {e : Built} (he : e ∈ shards) :
    HistoryOk e.calls.flatten ∧ SizesOk (Loader.init.addAll e.calls) := by
  have hs : e.calls.flatten.Subperm whole.calls.flatten :=
    (List.sublist_flatten_of_mem (List.mem_map_of_mem (f := fun e : Built => e.calls.flatten) he)).subperm.trans hp.symm.subperm
  exact ⟨historyOk_sub hH (fun x hx => hs.subset hx), sizesOk_sub hH hS hs⟩

theorem sum_map_add {α : Type} (l : List α) (f g : α → Nat) : (l.map (fun x => f x + g x)).sum = (l.map f).sum + (l.map g).sum := by
  induction l with
  | nil => rfl
  | cons x l ih => simp only [List.map_cons, List.sum_cons, ih]; omega

/-- **C84 (detection, counts).** A dataset is evaluated as a whole and in shards, each with its own evaluator, labels ids, order of adding and
storage: for every label and all thresholds the counts of the shards add up to the counts of the whole. -/
theorem C84_detection_counts (whole : Built) (shards : List Built) (hp : whole.calls.flatten.Perm (shards.map (fun e => e.calls.flatten)).flatten)
    (hH : HistoryOk whole.calls.flatten) (hS : SizesOk (Loader.init.addAll whole.calls)) (t s : Rat) (v : String) :
    whole.gt v = (shards.map (fun e => e.gt v)).sum ∧ whole.tp t s v = (shards.map (fun e => e.tp t s v)).sum ∧
    whole.fp t s v = (shards.map (fun e => e.fp t s v)).sum ∧ whole.fn t s v = (shards.map (fun e => e.fn t s v)).sum := by
  obtain ⟨a1, a2, a3⟩ := whole.counts_alone hH hS t s v
  have hsh := fun e (he : e ∈ shards) => (shard_ok hp hH hS he)
  have b1 : whole.gt v = (shards.map (fun e => e.gt v)).sum := by
    rw [a1, sum_shards _ hp]
    congr 1
    exact List.map_congr_left (fun e he => (e.counts_alone (hsh e he).1 (hsh e he).2 t s v).1.symm)
  have b2 : whole.tp t s v = (shards.map (fun e => e.tp t s v)).sum := by
    rw [a2, sum_shards _ hp]
    congr 1
    exact List.map_congr_left (fun e he => (e.counts_alone (hsh e he).1 (hsh e he).2 t s v).2.1.symm)
  have b3 : whole.tp t s v + whole.fp t s v = (shards.map (fun e => e.tp t s v + e.fp t s v)).sum := by
    rw [a3, sum_shards _ hp]
    congr 1
    exact List.map_congr_left (fun e he => (e.counts_alone (hsh e he).1 (hsh e he).2 t s v).2.2.symm)
  have b4 : (shards.map (fun e => e.fn t s v + e.tp t s v)).sum = (shards.map (fun e => e.gt v)).sum := by
    congr 1
    exact List.map_congr_left (fun e he => e.fn_eq (hsh e he).1 (hsh e he).2 t s v)
  rw [sum_map_add] at b3 b4
  have b5 := whole.fn_eq hH hS t s v
  exact ⟨b1, b2, by omega, by omega⟩

/-- **C84 (detection, confusion matrix).** -/
theorem C84_detection_confusion (whole : Built) (shards : List Built) (hp : whole.calls.flatten.Perm (shards.map (fun e => e.calls.flatten)).flatten)
    (hH : HistoryOk whole.calls.flatten) (hS : SizesOk (Loader.init.addAll whole.calls)) (t s : Rat) :
    (∀ g p : String, whole.cell t s g p = (shards.map (fun e => e.cell t s g p)).sum) ∧
    (∀ v : String, whole.missed t s v = (shards.map (fun e => e.missed t s v)).sum) ∧
    (∀ v : String, whole.spurious t s v = (shards.map (fun e => e.spurious t s v)).sum) := by
  obtain ⟨a1, a2, a3⟩ := whole.cm_alone hH hS t s
  have hsh := fun e (he : e ∈ shards) => (shard_ok hp hH hS he)
  refine ⟨fun g p => ?_, fun v => ?_, fun v => ?_⟩
  · rw [a1, sum_shards _ hp]
    congr 1
    exact List.map_congr_left (fun e he => ((e.cm_alone (hsh e he).1 (hsh e he).2 t s).1 g p).symm)
  · rw [a2, sum_shards _ hp]
    congr 1
    exact List.map_congr_left (fun e he => ((e.cm_alone (hsh e he).1 (hsh e he).2 t s).2.1 v).symm)
  · rw [a3, sum_shards _ hp]
    congr 1
    exact List.map_congr_left (fun e he => ((e.cm_alone (hsh e he).1 (hsh e he).2 t s).2.2 v).symm)

theorem precision_copies {n : Nat} (hn : 0 < n) (a b : Nat) : precision (n * a) (n * b) = precision a b := by
  have hq : (n : Rat) ≠ 0 := by exact_mod_cast hn.ne'
  unfold precision
  rw [← Nat.mul_add]
  by_cases h : a + b > 0
  · rw [if_pos h, if_pos (Nat.mul_pos hn h), Nat.cast_mul, Nat.cast_mul, mul_div_mul_left _ _ hq]
  · have h0 : a + b = 0 := by omega
    rw [h0, Nat.mul_zero, if_neg (by omega), if_neg (by omega)]

theorem recall_copies {n : Nat} (hn : 0 < n) (a b : Nat) : recall (n * a) (n * b) = recall a b := by
  have hq : (n : Rat) ≠ 0 := by exact_mod_cast hn.ne'
  unfold recall
  by_cases h : b > 0
  · rw [if_pos h, if_pos (Nat.mul_pos hn h), Nat.cast_mul, Nat.cast_mul, mul_div_mul_left _ _ hq]
  · have h0 : b = 0 := by omega
    rw [h0, Nat.mul_zero, if_neg (by omega), if_neg (by omega)]

/-- **C84 (detection, copies).** A dataset in which every detection is repeated `n` times has the precision, recall and F1 of the dataset. -/
theorem C84_detection_copies (whole e : Built) {n : Nat} (hn : 0 < n) (hp : whole.calls.flatten.Perm (List.replicate n e.calls.flatten).flatten)
    (hH : HistoryOk whole.calls.flatten) (hS : SizesOk (Loader.init.addAll whole.calls)) (t s : Rat) (v : String) :
    precision (whole.tp t s v) (whole.fp t s v) = precision (e.tp t s v) (e.fp t s v) ∧
    recall (whole.tp t s v) (whole.gt v) = recall (e.tp t s v) (e.gt v) ∧
    f1 (precision (whole.tp t s v) (whole.fp t s v)) (recall (whole.tp t s v) (whole.gt v))
      = f1 (precision (e.tp t s v) (e.fp t s v)) (recall (e.tp t s v) (e.gt v)) := by
  obtain ⟨h1, h2, h3, _⟩ := C84_detection_counts whole (List.replicate n e) (by rw [List.map_replicate]; exact hp) hH hS t s v
  rw [List.map_replicate, List.sum_replicate, smul_eq_mul] at h1 h2 h3
  have e1 : precision (whole.tp t s v) (whole.fp t s v) = precision (e.tp t s v) (e.fp t s v) := by rw [h2, h3, precision_copies hn]
  have e2 : recall (whole.tp t s v) (whole.gt v) = recall (e.tp t s v) (e.gt v) := by rw [h2, h1, recall_copies hn]
  exact ⟨e1, e2, by rw [e1, e2]⟩

/-- Every history has an evaluator: one table, one ranked chunk. -/
theorem built_exists (calls : List History) : ∃ e : Built, e.calls = calls := by
  refine ⟨⟨calls, [sortBy fKey (Loader.init.addAll calls).rows.flatten],
    [sortBy (fun x : RRow => rankKey x.row) (rankTable ((sortBy fKey (Loader.init.addAll calls).rows.flatten).map FRow.row))], storedSorted_mem _, ?_⟩, rfl⟩
  rw [List.flatten_singleton]
  refine ⟨Verif.Cache.sortBy_sorted _ _, ?_⟩
  intro k
  simp only [rowsIn, List.map_cons, List.map_nil, List.flatten_singleton]
  exact Verif.Cache.sortBy_stable _ _ k

/-- The hypotheses hold for a dataset of two detections with different labels and its two shards in the other order, where the label ids
differ. -/
example : ∃ whole a b : Built, whole.calls.flatten.Perm (([b, a].map (fun e => e.calls.flatten)).flatten) ∧ HistoryOk whole.calls.flatten ∧
    SizesOk (Loader.init.addAll whole.calls) ∧ labelId whole.calls "w" = 1 ∧ labelId b.calls "w" = 0 := by
  obtain ⟨w, hw⟩ := built_exists [[found, mistaken]]
  obtain ⟨a, ha⟩ := built_exists [[found]]
  obtain ⟨b, hb⟩ := built_exists [[mistaken]]
  refine ⟨w, a, b, ?_, ?_, ?_, ?_, ?_⟩
  · rw [hw]; simp only [List.map_cons, List.map_nil, ha, hb]; exact List.Perm.swap _ _ _
  · rw [hw]; exact found_ok
  · rw [hw]; exact found_sizes _ _ (Or.inl ⟨rfl, rfl⟩)
  · rw [hw]; decide +kernel
  · rw [hb]; decide +kernel

end Verif.Detection
