import Verif.Detection.DivisionProps

/-!
# C56, C58: the confusion matrix
-/

namespace Verif.Detection

open Verif.Classification (unique)
open Verif.Cache (sortBy)

/-- Ids fit and belong to one datum; a prediction may have several labels. -/
structure Owned (rows : List Row) : Prop where
  ids : ∀ r ∈ rows, RowIds r
  gts : ∀ x ∈ rows, ∀ y ∈ rows, 0 ≤ x.gt → x.gt = y.gt → x.datum = y.datum
  pds : PdOwned rows

theorem Owned.subset {rows sub : List Row} (h : Owned rows) (hs : ∀ x ∈ sub, x ∈ rows) : Owned sub where
  ids := fun r hr => h.ids r (hs r hr)
  gts := fun x hx y hy => h.gts x (hs x hx) y (hs y hy)
  pds := h.pds.subset hs

theorem Owned.filter {rows : List Row} (h : Owned rows) (P : Row → Bool) : Owned (rows.filter P) :=
  h.subset (fun _ hx => (List.mem_filter.1 hx).1)

theorem greedy_cons (ug up : List Int) (r : Row) (rs : List Row) : greedy ug up (r :: rs)
    = if !(decide (r.gt < 0) || decide (r.pd < 0) || decide (r.gt ∈ ug) || decide (r.pd ∈ up)) then
        true :: greedy (r.gt :: ug) (r.pd :: up) rs
      else false :: greedy ug up rs := rfl

/-- Greedy matching works datum by datum. -/
theorem greedy_filter (D : Int → Bool) (l : List Row) (ug up ug' up' : List Int)
    (hg : ∀ x ∈ l, ∀ y ∈ l, 0 ≤ x.gt → x.gt = y.gt → x.datum = y.datum) (hp : PdOwned l)
    (ig : ∀ x ∈ l, onDatums D x = true → 0 ≤ x.gt → (x.gt ∈ ug ↔ x.gt ∈ ug'))
    (ip : ∀ x ∈ l, onDatums D x = true → 0 ≤ x.pd → (x.pd ∈ up ↔ x.pd ∈ up')) :
    (l.zip (greedy ug up l)).filter (fun x => onDatums D x.1) = (l.filter (onDatums D)).zip (greedy ug' up' (l.filter (onDatums D))) := by
  induction l generalizing ug up ug' up' with
  | nil => rfl
  | cons r rs ih =>
    have hg' : ∀ x ∈ rs, ∀ y ∈ rs, 0 ≤ x.gt → x.gt = y.gt → x.datum = y.datum :=
      fun x hx y hy => hg x (by simp [hx]) y (by simp [hy])
    have hp' : PdOwned rs := hp.subset (fun x hx => by simp [hx])
    have ig' : ∀ x ∈ rs, onDatums D x = true → 0 ≤ x.gt → (x.gt ∈ ug ↔ x.gt ∈ ug') := fun x hx => ig x (by simp [hx])
    have ip' : ∀ x ∈ rs, onDatums D x = true → 0 ≤ x.pd → (x.pd ∈ up ↔ x.pd ∈ up') := fun x hx => ip x (by simp [hx])
    by_cases hD : onDatums D r = true
    · have hcond : (!(decide (r.gt < 0) || decide (r.pd < 0) || decide (r.gt ∈ ug) || decide (r.pd ∈ up)))
          = (!(decide (r.gt < 0) || decide (r.pd < 0) || decide (r.gt ∈ ug') || decide (r.pd ∈ up'))) := by
        by_cases h1 : r.gt < 0
        · simp [h1]
        · by_cases h2 : r.pd < 0
          · simp [h2]
          · have e1 := ig r (by simp) hD (by omega)
            have e2 := ip r (by simp) hD (by omega)
            simp only [e1, e2]
      rw [List.filter_cons (x := r), if_pos hD]
      rw [greedy_cons, greedy_cons, hcond]
      split
      · rw [List.zip_cons_cons, List.zip_cons_cons, List.filter_cons, if_pos hD]
        rw [ih (r.gt :: ug) (r.pd :: up) (r.gt :: ug') (r.pd :: up') hg' hp']
        · intro x hx hxD h0
          rw [List.mem_cons, List.mem_cons, ig' x hx hxD h0]
        · intro x hx hxD h0
          rw [List.mem_cons, List.mem_cons, ip' x hx hxD h0]
      · rw [List.zip_cons_cons, List.zip_cons_cons, List.filter_cons, if_pos hD]
        rw [ih ug up ug' up' hg' hp' ig' ip']
    · rw [List.filter_cons (x := r), if_neg hD]
      rw [greedy_cons]
      split
      · rw [List.zip_cons_cons, List.filter_cons, if_neg hD]
        rw [ih (r.gt :: ug) (r.pd :: up) ug' up' hg' hp']
        · intro x hx hxD h0
          rw [List.mem_cons, ← ig' x hx hxD h0]
          constructor
          · rintro (h | h)
            · exfalso
              have := hg x (by simp [hx]) r (by simp) h0 h
              unfold onDatums at hD hxD
              rw [this] at hxD
              exact hD hxD
            · exact h
          · exact Or.inr
        · intro x hx hxD h0
          rw [List.mem_cons, ← ip' x hx hxD h0]
          constructor
          · rintro (h | h)
            · exfalso
              have := hp x (by simp [hx]) r (by simp) h0 h
              unfold onDatums at hD hxD
              rw [this] at hxD
              exact hD hxD
            · exact h
          · exact Or.inr
      · rw [List.zip_cons_cons, List.filter_cons, if_neg hD]
        rw [ih ug up ug' up' hg' hp' ig' ip']

theorem keptPairs_mem {rows : List Row} {g p : Int} : (g, p) ∈ keptPairs rows ↔
    ∃ x ∈ rows.zip (greedy [] [] rows), x.2 = true ∧ x.1.gt = g ∧ x.1.pd = p := by
  unfold keptPairs unique
  rw [List.mem_dedup, List.mem_map]
  simp only [List.mem_filter, Prod.mk.injEq]
  constructor
  · rintro ⟨x, ⟨h1, h2⟩, h3⟩; exact ⟨x, h1, h2, h3⟩
  · rintro ⟨x, h1, h2, h3⟩; exact ⟨x, ⟨h1, h2⟩, h3⟩

theorem kept_nonneg {rows : List Row} (ho : Owned rows) {g p : Int} (h : (g, p) ∈ keptPairs rows) : 0 ≤ g ∧ 0 ≤ p := by
  have := keptPairs_ok ho.ids _ h
  exact ⟨this.1.1, this.2.1⟩

/-- Matching a row is a matter of its datum. -/
theorem matched_filter (D : Int → Bool) {rows : List Row} (ho : Owned rows) {r : Row} (hr : r ∈ rows) (hD : onDatums D r = true) :
    matched rows r = matched (rows.filter (onDatums D)) r := by
  have hr' : r ∈ rows.filter (onDatums D) := List.mem_filter.2 ⟨hr, hD⟩
  have ho' := ho.filter (onDatums D)
  rw [Bool.eq_iff_iff]
  unfold matched
  rw [C31_isin _ _ ⟨(ho.ids r hr).1, (ho.ids r hr).2.1⟩ (keptPairs_ok ho.ids),
    C31_isin _ _ ⟨(ho.ids r hr).1, (ho.ids r hr).2.1⟩ (keptPairs_ok ho'.ids)]
  have hgf := greedy_filter D rows [] [] [] [] ho.gts ho.pds (by simp) (by simp)
  rw [keptPairs_mem, keptPairs_mem, ← hgf]
  constructor
  · rintro ⟨x, hx, h1, h2, h3⟩
    refine ⟨x, List.mem_filter.2 ⟨hx, ?_⟩, h1, h2, h3⟩
    have hk : (x.1.gt, x.1.pd) ∈ keptPairs rows := keptPairs_mem.2 ⟨x, hx, h1, rfl, rfl⟩
    have := ho.gts x.1 (List.of_mem_zip hx).1 r hr (kept_nonneg ho hk).1 h2
    unfold onDatums at hD ⊢
    rw [this]
    exact hD
  · rintro ⟨x, hx, h1⟩
    exact ⟨x, (List.mem_filter.1 hx).1, h1⟩

theorem thresholded_filter (D : Int → Bool) {rows : List Row} (ho : Owned rows) (t s : Rat) {r : Row} (hr : r ∈ rows)
    (hD : onDatums D r = true) : thresholded rows t s r = thresholded (rows.filter (onDatums D)) t s r := by
  unfold thresholded
  rw [matched_filter D ho hr hD]

theorem thresholded_kept {rows : List Row} (ho : Owned rows) {t s : Rat} {r : Row} (hr : r ∈ rows)
    (h : thresholded rows t s r = true) : IdOk r.datum ∧ IdOk r.gt ∧ IdOk r.pd := by
  unfold thresholded at h
  rw [Bool.and_eq_true, Bool.and_eq_true] at h
  have hm := h.1.1
  unfold matched at hm
  rw [C31_isin _ _ ⟨(ho.ids r hr).1, (ho.ids r hr).2.1⟩ (keptPairs_ok ho.ids)] at hm
  have := keptPairs_ok ho.ids _ hm
  exact ⟨(ho.ids r hr).2.2, this.1, this.2⟩

theorem pairFn_spec {rows : List Row} (ho : Owned rows) (t s : Rat) {r : Row} (hr : r ∈ rows) :
    pairFn rows t s r = true ↔ (¬ ∃ x ∈ rows, thresholded rows t s x = true ∧ x.datum = r.datum ∧ x.gt = r.gt) ∧ 0 ≤ r.gt := by
  unfold pairFn
  rw [Bool.and_eq_true, decide_eq_true_eq, Bool.not_eq_true', ← Bool.not_eq_true, C31_isin _ _ ⟨Or.inr (ho.ids r hr).2.2, (ho.ids r hr).1⟩]
  · unfold unique
    rw [List.mem_dedup, List.mem_map]
    simp only [List.mem_filter, Prod.mk.injEq, and_assoc]
  · unfold unique
    intro y hy
    rw [List.mem_dedup] at hy
    obtain ⟨x, hx, rfl⟩ := List.mem_map.1 hy
    have := thresholded_kept ho (List.mem_filter.1 hx).1 (List.mem_filter.1 hx).2
    exact ⟨this.1, this.2.1⟩

theorem pairFp_spec {rows : List Row} (ho : Owned rows) (t s : Rat) {r : Row} (hr : r ∈ rows) :
    pairFp rows t s r = true ↔ ((¬ ∃ x ∈ rows, thresholded rows t s x = true ∧ x.datum = r.datum ∧ x.pd = r.pd) ∧ 0 ≤ r.pd) ∧
      maskScore s r = true := by
  unfold pairFp
  rw [Bool.and_eq_true, Bool.and_eq_true, decide_eq_true_eq, Bool.not_eq_true', ← Bool.not_eq_true,
    C31_isin _ _ ⟨Or.inr (ho.ids r hr).2.2, (ho.ids r hr).2.1⟩]
  · unfold unique
    rw [List.mem_dedup, List.mem_map]
    simp only [List.mem_filter, Prod.mk.injEq, and_assoc]
  · unfold unique
    intro y hy
    rw [List.mem_dedup] at hy
    obtain ⟨x, hx, rfl⟩ := List.mem_map.1 hy
    have := thresholded_kept ho (List.mem_filter.1 hx).1 (List.mem_filter.1 hx).2
    exact ⟨this.1, this.2.2⟩

theorem exists_filter (D : Int → Bool) {rows : List Row} (ho : Owned rows) (t s : Rat) {r : Row}
    (hD : onDatums D r = true) (f : Row → Int) :
    (∃ x ∈ rows, thresholded rows t s x = true ∧ x.datum = r.datum ∧ f x = f r) ↔
      ∃ x ∈ rows.filter (onDatums D), thresholded (rows.filter (onDatums D)) t s x = true ∧ x.datum = r.datum ∧ f x = f r := by
  constructor
  · rintro ⟨x, hx, h1, h2, h3⟩
    have hxD : onDatums D x = true := by
      unfold onDatums at hD ⊢
      rw [h2]; exact hD
    exact ⟨x, List.mem_filter.2 ⟨hx, hxD⟩, by rw [← thresholded_filter D ho t s hx hxD]; exact h1, h2, h3⟩
  · rintro ⟨x, hx, h1, h2, h3⟩
    rw [List.mem_filter] at hx
    exact ⟨x, hx.1, by rw [thresholded_filter D ho t s hx.1 hx.2]; exact h1, h2, h3⟩

theorem pairFn_filter (D : Int → Bool) {rows : List Row} (ho : Owned rows) (t s : Rat) {r : Row} (hr : r ∈ rows)
    (hD : onDatums D r = true) : pairFn rows t s r = pairFn (rows.filter (onDatums D)) t s r := by
  rw [Bool.eq_iff_iff, pairFn_spec ho t s hr, pairFn_spec (ho.filter _) t s (List.mem_filter.2 ⟨hr, hD⟩),
    exists_filter D ho t s hD Row.gt]

theorem pairFp_filter (D : Int → Bool) {rows : List Row} (ho : Owned rows) (t s : Rat) {r : Row} (hr : r ∈ rows)
    (hD : onDatums D r = true) : pairFp rows t s r = pairFp (rows.filter (onDatums D)) t s r := by
  rw [Bool.eq_iff_iff, pairFp_spec ho t s hr, pairFp_spec (ho.filter _) t s (List.mem_filter.2 ⟨hr, hD⟩),
    exists_filter D ho t s hD Row.pd]

/-- Counting distinct keys that contain the datum, for a condition that is a matter of the datum. -/
theorem distinct_datums {f : Row → List Int} (hf : ∀ x y, f x = f y → x.datum = y.datum) (P : List Row → Row → Bool)
    (D : Int → Bool) (rows : List Row)
    (h1 : ∀ r ∈ rows, onDatums D r = true → P rows r = P (rows.filter (onDatums D)) r)
    (h2 : ∀ r ∈ rows, onDatums (fun d => !D d) r = true → P rows r = P (rows.filter (onDatums (fun d => !D d))) r) :
    distinct f (rows.filter (P rows)) = distinct f ((rows.filter (onDatums D)).filter (P (rows.filter (onDatums D))))
      + distinct f ((rows.filter (onDatums (fun d => !D d))).filter (P (rows.filter (onDatums (fun d => !D d))))) := by
  rw [distinct_split (rows.filter (P rows)) (onDatums D)]
  · congr 1
    · rw [List.filter_comm]
      congr 1
      apply List.filter_congr
      intro r hr
      rw [List.mem_filter] at hr
      exact h1 r hr.1 hr.2
    · have : (fun x => !onDatums D x) = onDatums (fun d => !D d) := rfl
      rw [this, List.filter_comm]
      congr 1
      apply List.filter_congr
      intro r hr
      rw [List.mem_filter] at hr
      exact h2 r hr.1 hr.2
  · intro x _ y _ he
    unfold onDatums
    rw [hf x y he]

/-- A count over a table that adds up over datums. -/
def Additive (F : List Row → Nat) : Prop :=
  F [] = 0 ∧ ∀ rows, Owned rows → ∀ D : Int → Bool, F rows = F (rows.filter (onDatums D)) + F (rows.filter (onDatums (fun d => !D d)))

theorem cmCell_eq_one (rows : List Row) (t s : Rat) (g p : Int) : cmCell rows t s g p
    = distinct (fun r : Row => [r.datum, r.gt, r.pd, r.gl, r.pl])
      (rows.filter (fun r => (decide (r.gl = g) && decide (r.pl = p)) && thresholded rows t s r)) := by
  rw [cmCell_eq, List.filter_filter]

theorem additive_cm (t s : Rat) (g p : Int) : Additive (fun rows => cmCell rows t s g p) := by
  refine ⟨rfl, ?_⟩
  intro rows ho D
  dsimp only
  rw [cmCell_eq_one, cmCell_eq_one, cmCell_eq_one]
  apply distinct_datums (f := fun r : Row => [r.datum, r.gt, r.pd, r.gl, r.pl])
    (P := fun rows r => (decide (r.gl = g) && decide (r.pl = p)) && thresholded rows t s r)
  · intro x y h
    simp only [List.cons.injEq] at h
    exact h.1
  · intro r hr hD
    rw [thresholded_filter D ho t s hr hD]
  · intro r hr hD
    rw [thresholded_filter (fun d => !D d) ho t s hr hD]

theorem unmatchedGt_eq (rows : List Row) (t s : Rat) (l : Int) : unmatchedGt rows t s l
    = distinct (fun r : Row => [r.datum, r.gt, r.gl]) (rows.filter (fun r => decide (r.gl = l) && pairFn rows t s r)) := by
  unfold unmatchedGt
  rw [unique_filter, List.filter_filter]
  congr 1
  apply List.filter_congr
  intro r _
  simp

theorem unmatchedPd_eq (rows : List Row) (t s : Rat) (l : Int) : unmatchedPd rows t s l
    = distinct (fun r : Row => [r.datum, r.pd, r.pl]) (rows.filter (fun r => decide (r.pl = l) && pairFp rows t s r)) := by
  unfold unmatchedPd
  rw [unique_filter, List.filter_filter]
  congr 1
  apply List.filter_congr
  intro r _
  simp

theorem additive_gt (t s : Rat) (l : Int) : Additive (fun rows => unmatchedGt rows t s l) := by
  refine ⟨rfl, ?_⟩
  intro rows ho D
  dsimp only
  rw [unmatchedGt_eq, unmatchedGt_eq, unmatchedGt_eq]
  apply distinct_datums (f := fun r : Row => [r.datum, r.gt, r.gl]) (P := fun rows r => decide (r.gl = l) && pairFn rows t s r)
  · intro x y h
    simp only [List.cons.injEq] at h
    exact h.1
  · intro r hr hD
    rw [pairFn_filter D ho t s hr hD]
  · intro r hr hD
    rw [pairFn_filter (fun d => !D d) ho t s hr hD]

theorem additive_pd (t s : Rat) (l : Int) : Additive (fun rows => unmatchedPd rows t s l) := by
  refine ⟨rfl, ?_⟩
  intro rows ho D
  dsimp only
  rw [unmatchedPd_eq, unmatchedPd_eq, unmatchedPd_eq]
  apply distinct_datums (f := fun r : Row => [r.datum, r.pd, r.pl]) (P := fun rows r => decide (r.pl = l) && pairFp rows t s r)
  · intro x y h
    simp only [List.cons.injEq] at h
    exact h.1
  · intro r hr hD
    rw [pairFp_filter D ho t s hr hD]
  · intro r hr hD
    rw [pairFp_filter (fun d => !D d) ho t s hr hD]

/-- The sum over the tables is the count over one sorted table. -/
theorem additive_total {F : List Row → Nat} (hF : Additive F) {rows : List Row} (ho : Owned rows) {tables : List (List Row)}
    (h : Divides rows tables) : (tables.map F).sum = F (sortBy rankKey rows) := by
  obtain ⟨pieces, hstab, hd, rfl⟩ := h
  rw [← sortBy_of_stable hstab]
  have ho := ho.subset (fun x hx => hstab.perm.mem_iff.1 hx)
  clear hstab
  induction pieces with
  | nil =>
    have : sortBy rankKey ([] : List Row) = [] := by
      rw [List.eq_nil_iff_forall_not_mem]
      intro x hx
      rw [mem_sortBy] at hx
      simp at hx
    rw [List.flatten_nil, this, hF.1]
    rfl
  | cons p ps ih =>
    rw [List.pairwise_cons] at hd
    have ho' : Owned ps.flatten := ho.subset (fun x hx => by rw [List.flatten_cons, List.mem_append]; exact Or.inr hx)
    rw [List.map_cons, List.map_cons, List.sum_cons, ih hd.2 ho', List.flatten_cons]
    let D : Int → Bool := fun d => decide (d ∈ p.map Row.datum)
    have hDp : ∀ x ∈ p, onDatums D x = true := by
      intro x hx
      simp only [onDatums, D, decide_eq_true_eq]
      exact List.mem_map_of_mem hx
    have hDq : ∀ x ∈ ps.flatten, onDatums D x = false := by
      intro x hx
      simp only [onDatums, D, decide_eq_false_iff_not, List.mem_map, not_exists, not_and]
      intro y hy he
      obtain ⟨q, hq, hxq⟩ := List.mem_flatten.1 hx
      have := hd.1 q hq y hy x hxq
      omega
    have hs : Owned (sortBy rankKey (p ++ ps.flatten)) := ho.subset (fun x hx => by rw [List.flatten_cons]; exact mem_sortBy.1 hx)
    rw [hF.2 _ hs D, sortBy_filter, sortBy_filter]
    have e1 : (p ++ ps.flatten).filter (onDatums D) = p := by
      have hu : ps.flatten.filter (onDatums D) = [] := List.filter_eq_nil_iff.2 (fun x hx => by rw [hDq x hx]; simp)
      rw [List.filter_append, List.filter_eq_self.2 hDp, hu, List.append_nil]
    have e2 : (p ++ ps.flatten).filter (onDatums (fun d => !D d)) = ps.flatten := by
      have ht : p.filter (onDatums (fun d => !D d)) = [] := List.filter_eq_nil_iff.2 (fun x hx => by
        have := hDp x hx
        unfold onDatums at this ⊢
        simp [this])
      rw [List.filter_append, ht, List.nil_append]
      apply List.filter_eq_self.2
      intro x hx
      have := hDq x hx
      unfold onDatums at this ⊢
      simp [this]
    rw [e1, e2]

/-- Reading a divided cache with a filter on datums gives a division of the filtered rows. -/
theorem divides_read {rows : List Row} {tables : List (List Row)} (h : Divides rows tables) (D : Int → Bool) :
    Divides (rows.filter (fun r => D r.datum)) (tables.map (fun tbl => tbl.filter (fun r => D r.datum))) := by
  obtain ⟨pieces, hstab, hd, rfl⟩ := h
  refine ⟨pieces.map (fun p => p.filter (fun r => D r.datum)), ?_, ?_, ?_⟩
  · intro k
    rw [← List.filter_flatten, List.filter_comm, hstab k, List.filter_comm]
  · rw [List.pairwise_map]
    refine hd.imp ?_
    intro a b hab x hx y hy
    exact hab x (List.mem_filter.1 hx).1 y (List.mem_filter.1 hy).1
  · rw [List.map_map, List.map_map]
    apply List.map_congr_left
    intro p _
    exact sortBy_filter rankKey (fun r => D r.datum) p

/-- **C58 (confusion matrix).** However the rows are divided into tables, all cells of the confusion matrix and the numbers
of unmatched ground truths and predictions are the same, for all thresholds and labels. -/
theorem C58_confusion {rows : List Row} (ho : Owned rows) {t1 t2 : List (List Row)} (h1 : Divides rows t1) (h2 : Divides rows t2)
    (t s : Rat) :
    (∀ g p, cmTotal t1 t s g p = cmTotal t2 t s g p) ∧ (∀ l, unmatchedGtTotal t1 t s l = unmatchedGtTotal t2 t s l) ∧
    ∀ l, unmatchedPdTotal t1 t s l = unmatchedPdTotal t2 t s l :=
  ⟨fun g p => (additive_total (additive_cm t s g p) ho h1).trans (additive_total (additive_cm t s g p) ho h2).symm,
   fun l => (additive_total (additive_gt t s l) ho h1).trans (additive_total (additive_gt t s l) ho h2).symm,
   fun l => (additive_total (additive_pd t s l) ho h1).trans (additive_total (additive_pd t s l) ho h2).symm⟩

/-- **C56 (detection confusion matrix).** The confusion matrix with a filter on datums is that of the evaluator filtered
by these datums first. -/
theorem C56_detection_confusion {rows : List Row} (ho : Owned rows) (D : Int → Bool) {t1 t2 : List (List Row)} (h1 : Divides rows t1)
    (h2 : Divides (rows.filter (fun r => D r.datum)) t2) (t s : Rat) :
    let read := t1.map (fun tbl => tbl.filter (fun r => D r.datum))
    (∀ g p, cmTotal read t s g p = cmTotal t2 t s g p) ∧ (∀ l, unmatchedGtTotal read t s l = unmatchedGtTotal t2 t s l) ∧
    ∀ l, unmatchedPdTotal read t s l = unmatchedPdTotal t2 t s l :=
  C58_confusion (ho.filter _) (divides_read h1 D) h2 t s

end Verif.Detection
