import Verif.Detection.CmDivision

/-!
# Renaming ids in the detailed cache

Lemmas for C75: the ranking and the pair matching only compare ids, so they commute with a renaming of datum,
ground truth, prediction and label ids.
-/

namespace Verif.Detection

open Verif.Classification (unique)
open Verif.Cache (sortBy SortedBy StableOf sorted_stable_unique sortBy_sorted sortBy_stable)

/-- `f` renames the ids of the rows: it keeps IoU, score, missing ids and equality of ids, and within a datum the order
of the predictions. -/
structure Renames (f : Row → Row) (rows : List Row) : Prop where
  score : ∀ r, (f r).score = r.score
  iou : ∀ r, (f r).iou = r.iou
  gt0 : ∀ r ∈ rows, 0 ≤ (f r).gt ↔ 0 ≤ r.gt
  pd0 : ∀ r ∈ rows, 0 ≤ (f r).pd ↔ 0 ≤ r.pd
  datum : ∀ x ∈ rows, ∀ y ∈ rows, (f x).datum = (f y).datum ↔ x.datum = y.datum
  gt : ∀ x ∈ rows, ∀ y ∈ rows, (f x).gt = (f y).gt ↔ x.gt = y.gt
  pd : ∀ x ∈ rows, ∀ y ∈ rows, (f x).pd = (f y).pd ↔ x.pd = y.pd
  gl : ∀ x ∈ rows, ∀ y ∈ rows, (f x).gl = (f y).gl ↔ x.gl = y.gl
  pl : ∀ x ∈ rows, ∀ y ∈ rows, (f x).pl = (f y).pl ↔ x.pl = y.pl
  lab : ∀ r ∈ rows, (f r).gl = (f r).pl ↔ r.gl = r.pl
  ok : ∀ r ∈ rows, RowOk r
  ok' : ∀ r ∈ rows, RowOk (f r)
  up : ∀ x ∈ rows, ∀ y ∈ rows, x.datum = y.datum → x.pd < y.pd → (f x).pd < (f y).pd

theorem Renames.subset {f : Row → Row} {rows sub : List Row} (h : Renames f rows) (hs : ∀ r ∈ sub, r ∈ rows) : Renames f sub where
  score := h.score
  iou := h.iou
  gt0 := fun r hr => h.gt0 r (hs r hr)
  pd0 := fun r hr => h.pd0 r (hs r hr)
  datum := fun x hx y hy => h.datum x (hs x hx) y (hs y hy)
  gt := fun x hx y hy => h.gt x (hs x hx) y (hs y hy)
  pd := fun x hx y hy => h.pd x (hs x hx) y (hs y hy)
  gl := fun x hx y hy => h.gl x (hs x hx) y (hs y hy)
  pl := fun x hx y hy => h.pl x (hs x hx) y (hs y hy)
  lab := fun r hr => h.lab r (hs r hr)
  ok := fun r hr => h.ok r (hs r hr)
  ok' := fun r hr => h.ok' r (hs r hr)
  up := fun x hx y hy => h.up x (hs x hx) y (hs y hy)

theorem Renames.key {f : Row → Row} {rows : List Row} (h : Renames f rows) (r : Row) : rankKey (f r) = rankKey r := by
  unfold rankKey
  rw [h.score, h.iou]

theorem Renames.inj {f : Row → Row} {rows : List Row} (h : Renames f rows) {x y : Row} (hx : x ∈ rows) (hy : y ∈ rows)
    (he : f x = f y) : x = y := by
  have h1 := (h.datum x hx y hy).1 (by rw [he])
  have h2 := (h.gt x hx y hy).1 (by rw [he])
  have h3 := (h.pd x hx y hy).1 (by rw [he])
  have h4 := (h.gl x hx y hy).1 (by rw [he])
  have h5 := (h.pl x hx y hy).1 (by rw [he])
  have h6 : x.iou = y.iou := by rw [← h.iou x, ← h.iou y, he]
  have h7 : x.score = y.score := by rw [← h.score x, ← h.score y, he]
  cases x
  cases y
  simp_all

theorem sortBy_map {f : Row → Row} {rows : List Row} (h : ∀ r, rankKey (f r) = rankKey r) :
    sortBy rankKey (rows.map f) = (sortBy rankKey rows).map f := by
  apply sorted_stable_unique (key := rankKey)
  · exact sortBy_sorted _ _
  · have := sortBy_sorted rankKey rows
    unfold SortedBy at this ⊢
    rw [List.pairwise_map]
    simp only [h]
    exact this
  · intro k
    rw [sortBy_stable rankKey (rows.map f) k, List.filter_map, List.filter_map]
    congr 1
    have e : ((fun x => @decide (rankKey x = k) (LinearOrder.toDecidableEq (rankKey x) k)) ∘ f)
        = fun x => @decide (rankKey x = k) (LinearOrder.toDecidableEq (rankKey x) k) := by
      funext x
      rw [Bool.eq_iff_iff]
      simp only [Function.comp_apply, h, decide_eq_true_eq]
    rw [e]
    exact (sortBy_stable rankKey rows k).symm

theorem Renames.labelMatch {f : Row → Row} {rows : List Row} (h : Renames f rows) {r : Row} (hr : r ∈ rows) (hp : 0 ≤ r.pd) :
    labelMatch (f r) = labelMatch r := by
  rw [Bool.eq_iff_iff, labelMatch_iff (h.ok r hr) hp, labelMatch_iff (h.ok' r hr) ((h.pd0 r hr).2 hp)]
  unfold Matches
  rw [h.gt0 r hr, h.lab r hr]

theorem Renames.matches' {f : Row → Row} {rows : List Row} (h : Renames f rows) {r : Row} (hr : r ∈ rows) :
    Matches (f r) ↔ Matches r := by
  unfold Matches
  rw [h.gt0 r hr, h.lab r hr]

theorem Renames.kept {f : Row → Row} {rows : List Row} (h : Renames f rows) : kept (rows.map f) = (kept rows).map f := by
  unfold Verif.Detection.kept
  dsimp only
  rw [List.filter_map, List.filter_map]
  have e1 : rows.filter ((fun r => decide (r.pd ≥ 0)) ∘ f) = rows.filter (fun r => decide (r.pd ≥ 0)) := by
    apply List.filter_congr
    intro r hr
    simp only [Function.comp_apply, ge_iff_le, h.pd0 r hr]
  rw [e1, List.filter_map]
  congr 1
  apply List.filter_congr
  intro r hr
  rw [List.mem_filter, decide_eq_true_eq] at hr
  simp only [Function.comp_apply]
  rw [h.labelMatch hr.1 hr.2]
  congr 2
  rw [Bool.eq_iff_iff]
  unfold unique
  simp only [List.contains_eq_mem, decide_eq_true_eq, List.mem_dedup, List.mem_map, List.mem_filter, Function.comp_apply]
  constructor
  · rintro ⟨_, ⟨x, ⟨⟨hx, h0⟩, hm⟩, rfl⟩, he⟩
    rw [h.labelMatch hx h0] at hm
    exact ⟨x, ⟨⟨hx, h0⟩, hm⟩, (h.pd x hx r hr.1).1 he⟩
  · rintro ⟨x, ⟨⟨hx, h0⟩, hm⟩, he⟩
    exact ⟨f x, ⟨x, ⟨⟨hx, h0⟩, by rw [h.labelMatch hx h0]; exact hm⟩, rfl⟩, (h.pd x hx r hr.1).2 he⟩

theorem Renames.pdKey {f : Row → Row} {rows : List Row} (h : Renames f rows) {x y : Row} (hx : x ∈ rows) (hy : y ∈ rows) :
    pdKey (f x) = pdKey (f y) ↔ pdKey x = pdKey y := by
  rw [pdKey_iff, pdKey_iff]
  unfold SamePrediction
  rw [h.datum x hx y hy, h.pd x hx y hy, h.pl x hx y hy]

theorem find_map {f : Row → Row} {p q : Row → Bool} {l : List Row} (h : ∀ x ∈ l, p (f x) = q x) :
    (l.map f).find? p = (l.find? q).map f := by
  rw [List.find?_map]
  congr 1
  exact find_congr (fun x hx => h x hx)

theorem kept_subset {l : List Row} : ∀ r ∈ kept l, r ∈ l := by
  intro r hr
  unfold kept at hr
  exact (List.mem_filter.1 (List.mem_filter.1 hr).1).1

/-- The chosen rows of the renamed table are the renamed chosen rows. -/
theorem Renames.mem_chosen {f : Row → Row} {rows : List Row} (h : Renames f rows) (r : Row) :
    r ∈ chosen (rows.map f) ↔ r ∈ (chosen rows).map f := by
  unfold chosen
  rw [sortBy_map h.key]
  have hs : Renames f (sortBy rankKey rows) := h.subset (fun x hx => mem_sortBy.1 hx)
  rw [hs.kept]
  have hk : Renames f (Verif.Detection.kept (sortBy rankKey rows)) := hs.subset kept_subset
  generalize Verif.Detection.kept (sortBy rankKey rows) = l at hk
  rw [mem_uniqueFirst, List.mem_map]
  constructor
  · intro he
    have hm := List.mem_of_find?_eq_some he
    obtain ⟨x, hx, rfl⟩ := List.mem_map.1 hm
    rw [find_map (q := fun y => decide (Verif.Detection.pdKey y = Verif.Detection.pdKey x)) (fun y hy => by
      rw [decide_eq_decide]; exact hk.pdKey hy hx)] at he
    cases hfd : l.find? (fun y => decide (Verif.Detection.pdKey y = Verif.Detection.pdKey x)) with
    | none => rw [hfd] at he; simp at he
    | some z =>
      rw [hfd, Option.map_some, Option.some.injEq] at he
      have hzx := hk.inj (List.mem_of_find?_eq_some hfd) hx he
      subst hzx
      exact ⟨z, mem_uniqueFirst.2 hfd, rfl⟩
  · rintro ⟨x, hx, rfl⟩
    have hxl := uniqueFirst_mem hx
    rw [mem_uniqueFirst] at hx
    rw [find_map (q := fun y => decide (Verif.Detection.pdKey y = Verif.Detection.pdKey x)) (fun y hy => by
      rw [decide_eq_decide]; exact hk.pdKey hy hxl), hx]
    rfl

theorem chosen_nodup (t : List Row) : (chosen t).Nodup :=
  (chosen_lt t).imp (fun h e => by subst e; exact lt_irrefl _ h)

theorem Renames.chosen_perm {f : Row → Row} {rows : List Row} (h : Renames f rows) :
    (chosen (rows.map f)).Perm ((chosen rows).map f) := by
  rw [List.perm_ext_iff_of_nodup (chosen_nodup _)]
  · exact h.mem_chosen
  · apply List.Nodup.map_on _ (chosen_nodup _)
    intro x hx y hy
    exact h.inj (chosen_mem hx) (chosen_mem hy)

/-- Rows of one datum and one label keep their order. -/
theorem Renames.chosen_label {f : Row → Row} {rows : List Row} (h : Renames f rows) (hd : ∀ x ∈ rows, ∀ y ∈ rows, x.datum = y.datum)
    {l l' : Int} (hl : ∀ r ∈ rows, (f r).pl = l' ↔ r.pl = l) :
    (chosen (rows.map f)).filter (fun r => decide (r.pl = l')) = ((chosen rows).filter (fun r => decide (r.pl = l))).map f := by
  apply eq_of_keys (key := Verif.Detection.pdKey)
  · exact (chosen_lt _).filter _
  · rw [List.pairwise_map]
    refine List.Pairwise.imp_of_mem ?_ ((chosen_lt rows).filter _)
    intro x y hx hy hxy
    rw [List.mem_filter, decide_eq_true_eq] at hx hy
    have hx1 := chosen_mem hx.1
    have hy1 := chosen_mem hy.1
    have hdd := hd x hx1 y hy1
    have hlt : x.pd < y.pd := by
      unfold Verif.Detection.pdKey at hxy
      rw [hdd, hx.2, hy.2] at hxy
      rcases List.cons_lt_cons_iff.1 hxy with h | ⟨_, h⟩
      · exact absurd h (lt_irrefl _)
      · rcases List.cons_lt_cons_iff.1 h with h | ⟨_, h⟩
        · exact h
        · exact absurd h (lt_irrefl _)
    have := h.up x hx1 y hy1 hdd hlt
    unfold Verif.Detection.pdKey
    rw [(h.datum x hx1 y hy1).2 hdd]
    exact List.cons_lt_cons_iff.2 (Or.inr ⟨rfl, List.cons_lt_cons_iff.2 (Or.inl this)⟩)
  · intro r
    rw [List.mem_filter, h.mem_chosen, List.mem_map, List.mem_map, decide_eq_true_eq]
    constructor
    · rintro ⟨⟨x, hx, rfl⟩, hr⟩
      exact ⟨x, List.mem_filter.2 ⟨hx, decide_eq_true ((hl x (chosen_mem hx)).1 hr)⟩, rfl⟩
    · rintro ⟨x, hx, rfl⟩
      rw [List.mem_filter, decide_eq_true_eq] at hx
      exact ⟨⟨x, hx.1, rfl⟩, (hl x (chosen_mem hx.1)).2 hx.2⟩

/-! ## The pair matching -/

theorem distinct_map {β γ : Type} [DecidableEq β] [DecidableEq γ] {f : Row → Row} {key : Row → β} {key' : Row → γ} {l : List Row}
    (h : ∀ x ∈ l, ∀ y ∈ l, key' (f x) = key' (f y) ↔ key x = key y) : distinct key' (l.map f) = distinct key l := by
  have : distinct key' (l.map f) = distinct (fun x => key' (f x)) l := by
    unfold distinct
    rw [List.map_map]
    rfl
  rw [this]
  exact distinct_congr h

theorem Renames.greedy {f : Row → Row} {l : List Row} (h : Renames f l) (ug up ug' up' : List Int)
    (ig : ∀ x ∈ l, (f x).gt ∈ ug' ↔ x.gt ∈ ug) (ip : ∀ x ∈ l, (f x).pd ∈ up' ↔ x.pd ∈ up) :
    greedy ug' up' (l.map f) = greedy ug up l := by
  induction l generalizing ug up ug' up' with
  | nil => rfl
  | cons r rs ih =>
    have hr : r ∈ r :: rs := by simp
    have hrs := h.subset (sub := rs) (fun x hx => by simp [hx])
    have hcond : (!(decide ((f r).gt < 0) || decide ((f r).pd < 0) || decide ((f r).gt ∈ ug') || decide ((f r).pd ∈ up')))
          = (!(decide (r.gt < 0) || decide (r.pd < 0) || decide (r.gt ∈ ug) || decide (r.pd ∈ up))) := by
      have e1 : (f r).gt < 0 ↔ r.gt < 0 := by rw [← not_le, ← not_le, h.gt0 r hr]
      have e2 : (f r).pd < 0 ↔ r.pd < 0 := by rw [← not_le, ← not_le, h.pd0 r hr]
      simp only [e1, e2, ig r hr, ip r hr]
    rw [List.map_cons, greedy_cons, greedy_cons, hcond]
    split
    · rw [ih hrs (r.gt :: ug) (r.pd :: up) ((f r).gt :: ug') ((f r).pd :: up')]
      · intro x hx
        rw [List.mem_cons, List.mem_cons, h.gt x (by simp [hx]) r hr, ig x (by simp [hx])]
      · intro x hx
        rw [List.mem_cons, List.mem_cons, h.pd x (by simp [hx]) r hr, ip x (by simp [hx])]
    · rw [ih hrs ug up ug' up' (fun x hx => ig x (by simp [hx])) (fun x hx => ip x (by simp [hx]))]

theorem Renames.matched {f : Row → Row} {rows : List Row} (h : Renames f rows) (ho : Owned rows) (ho' : Owned (rows.map f))
    {r : Row} (hr : r ∈ rows) : matched (rows.map f) (f r) = matched rows r := by
  have hr' : f r ∈ rows.map f := List.mem_map_of_mem hr
  rw [Bool.eq_iff_iff]
  unfold Verif.Detection.matched
  rw [C31_isin _ _ ⟨(ho.ids r hr).1, (ho.ids r hr).2.1⟩ (keptPairs_ok ho.ids),
    C31_isin _ _ ⟨(ho'.ids _ hr').1, (ho'.ids _ hr').2.1⟩ (keptPairs_ok ho'.ids), keptPairs_mem, keptPairs_mem,
    h.greedy [] [] [] [] (by simp) (by simp)]
  rw [List.zip_map_left]
  constructor
  · rintro ⟨_, hx0, h1, h2, h3⟩
    obtain ⟨⟨x, b⟩, hx, rfl⟩ := List.mem_map.1 hx0
    have hxr := (List.of_mem_zip hx).1
    exact ⟨(x, b), hx, h1, (h.gt x hxr r hr).1 h2, (h.pd x hxr r hr).1 h3⟩
  · rintro ⟨⟨x, b⟩, hx, h1, h2, h3⟩
    have hxr := (List.of_mem_zip hx).1
    exact ⟨(f x, b), List.mem_map.2 ⟨(x, b), hx, rfl⟩, h1, (h.gt x hxr r hr).2 h2, (h.pd x hxr r hr).2 h3⟩

theorem Renames.maskScore {f : Row → Row} {rows : List Row} (h : Renames f rows) (s : Rat) (r : Row) :
    maskScore s (f r) = maskScore s r := by
  unfold Verif.Detection.maskScore
  rw [h.score]

theorem Renames.thresholded {f : Row → Row} {rows : List Row} (h : Renames f rows) (ho : Owned rows) (ho' : Owned (rows.map f))
    (t s : Rat) {r : Row} (hr : r ∈ rows) : thresholded (rows.map f) t s (f r) = thresholded rows t s r := by
  unfold Verif.Detection.thresholded
  rw [h.matched ho ho' hr, h.iou, h.maskScore]

theorem Renames.exists_thresholded {f : Row → Row} {rows : List Row} (h : Renames f rows) (ho : Owned rows) (ho' : Owned (rows.map f))
    (t s : Rat) {r : Row} (hr : r ∈ rows) {c : Row → Int} (hc : ∀ x ∈ rows, ∀ y ∈ rows, c (f x) = c (f y) ↔ c x = c y) :
    (∃ x ∈ rows.map f, Verif.Detection.thresholded (rows.map f) t s x = true ∧ x.datum = (f r).datum ∧ c x = c (f r)) ↔
      ∃ x ∈ rows, Verif.Detection.thresholded rows t s x = true ∧ x.datum = r.datum ∧ c x = c r := by
  constructor
  · rintro ⟨_, hx0, h1, h2, h3⟩
    obtain ⟨x, hx, rfl⟩ := List.mem_map.1 hx0
    exact ⟨x, hx, by rw [← h.thresholded ho ho' t s hx]; exact h1, (h.datum x hx r hr).1 h2, (hc x hx r hr).1 h3⟩
  · rintro ⟨x, hx, h1, h2, h3⟩
    exact ⟨f x, List.mem_map_of_mem hx, by rw [h.thresholded ho ho' t s hx]; exact h1, (h.datum x hx r hr).2 h2, (hc x hx r hr).2 h3⟩

theorem Renames.cmCell {f : Row → Row} {rows : List Row} (h : Renames f rows) (ho : Owned rows) (ho' : Owned (rows.map f))
    (t s : Rat) {g g' p p' : Int} (hg : ∀ r ∈ rows, (f r).gl = g' ↔ r.gl = g) (hp : ∀ r ∈ rows, (f r).pl = p' ↔ r.pl = p) :
    cmCell (rows.map f) t s g' p' = cmCell rows t s g p := by
  rw [cmCell_eq_one, cmCell_eq_one, List.filter_map]
  have e : rows.filter ((fun r => (decide (r.gl = g') && decide (r.pl = p')) && Verif.Detection.thresholded (rows.map f) t s r) ∘ f)
      = rows.filter (fun r => (decide (r.gl = g) && decide (r.pl = p)) && Verif.Detection.thresholded rows t s r) := by
    apply List.filter_congr
    intro r hr
    simp only [Function.comp_apply, hg r hr, hp r hr, h.thresholded ho ho' t s hr]
  rw [e]
  apply distinct_map
  intro x hx y hy
  have hx := (List.mem_filter.1 hx).1
  have hy := (List.mem_filter.1 hy).1
  simp only [List.cons.injEq, h.datum x hx y hy, h.gt x hx y hy, h.pd x hx y hy, h.gl x hx y hy, h.pl x hx y hy]

theorem Renames.unmatchedGt {f : Row → Row} {rows : List Row} (h : Renames f rows) (ho : Owned rows) (ho' : Owned (rows.map f))
    (t s : Rat) {l l' : Int} (hl : ∀ r ∈ rows, (f r).gl = l' ↔ r.gl = l) :
    unmatchedGt (rows.map f) t s l' = unmatchedGt rows t s l := by
  rw [unmatchedGt_eq, unmatchedGt_eq, List.filter_map]
  have e : rows.filter ((fun r => decide (r.gl = l') && pairFn (rows.map f) t s r) ∘ f)
      = rows.filter (fun r => decide (r.gl = l) && pairFn rows t s r) := by
    apply List.filter_congr
    intro r hr
    have e1 : pairFn (rows.map f) t s (f r) = pairFn rows t s r := by
      rw [Bool.eq_iff_iff, pairFn_spec ho t s hr, pairFn_spec ho' t s (List.mem_map_of_mem hr), h.gt0 r hr, h.exists_thresholded ho ho' t s hr (c := Row.gt) h.gt]
    simp only [Function.comp_apply, hl r hr, e1]
  rw [e]
  apply distinct_map
  intro x hx y hy
  have hx := (List.mem_filter.1 hx).1
  have hy := (List.mem_filter.1 hy).1
  simp only [List.cons.injEq, h.datum x hx y hy, h.gt x hx y hy, h.gl x hx y hy]

theorem Renames.unmatchedPd {f : Row → Row} {rows : List Row} (h : Renames f rows) (ho : Owned rows) (ho' : Owned (rows.map f))
    (t s : Rat) {l l' : Int} (hl : ∀ r ∈ rows, (f r).pl = l' ↔ r.pl = l) :
    unmatchedPd (rows.map f) t s l' = unmatchedPd rows t s l := by
  rw [unmatchedPd_eq, unmatchedPd_eq, List.filter_map]
  have e : rows.filter ((fun r => decide (r.pl = l') && pairFp (rows.map f) t s r) ∘ f)
      = rows.filter (fun r => decide (r.pl = l) && pairFp rows t s r) := by
    apply List.filter_congr
    intro r hr
    have e1 : pairFp (rows.map f) t s (f r) = pairFp rows t s r := by
      rw [Bool.eq_iff_iff, pairFp_spec ho t s hr, pairFp_spec ho' t s (List.mem_map_of_mem hr), h.pd0 r hr, h.maskScore, h.exists_thresholded ho ho' t s hr (c := Row.pd) h.pd]
    simp only [Function.comp_apply, hl r hr, e1]
  rw [e]
  apply distinct_map
  intro x hx y hy
  have hx := (List.mem_filter.1 hx).1
  have hy := (List.mem_filter.1 hy).1
  simp only [List.cons.injEq, h.datum x hx y hy, h.pd x hx y hy, h.pl x hx y hy]

end Verif.Detection
