import Verif.Segmentation.HistProps

/-! # C40: the segmentation filter; C55 and C35 for segmentation -/

namespace Verif.Segmentation

open Verif.Classification (unique idxOf_prefix)

/-! ## Rows -/

theorem validMask_iff {e : Expr} {f : SRow → Int × Int} {tbl : List SRow} {r : SRow} :
    validMask (some e) f tbl r = true ↔ ∃ r' ∈ tbl, e r' = true ∧ f r' = f r := by
  simp only [validMask, List.any_eq_true, decide_eq_true_eq]
  constructor
  · rintro ⟨x, hx, rfl⟩
    rw [unique, List.mem_dedup, List.mem_map] at hx
    obtain ⟨r', hr', e'⟩ := hx
    exact ⟨r', (List.mem_filter.1 hr').1, (List.mem_filter.1 hr').2, e'⟩
  · rintro ⟨r', h1, h2, h3⟩
    refine ⟨f r', ?_, h3⟩
    rw [unique, List.mem_dedup]
    exact List.mem_map_of_mem (List.mem_filter.2 ⟨h1, h2⟩)

/-- **C40 (rows).** For every table and every filters: a row stays in place with its image, count and texts; its
ground truth id is kept if a row of the table with the same image and id satisfies the ground truth filter and
becomes -1 otherwise; the same for the prediction. -/
theorem C40_rows (g p : Expr) (tbl : List SRow) :
    (filterTable (some g) (some p) tbl).length = tbl.length ∧
    ∀ (k : Nat) (r : SRow), tbl[k]? = some r → ∃ r' : SRow, (filterTable (some g) (some p) tbl)[k]? = some r' ∧
      r'.datum = r.datum ∧ r'.count = r.count ∧ r'.datumUid = r.datumUid ∧ r'.gtLabel = r.gtLabel ∧ r'.pdLabel = r.pdLabel ∧ r'.info = r.info ∧
      ((∃ q ∈ tbl, g q = true ∧ q.datum = r.datum ∧ q.gl = r.gl) → r'.gl = r.gl) ∧
      ((¬ ∃ q ∈ tbl, g q = true ∧ q.datum = r.datum ∧ q.gl = r.gl) → r'.gl = -1) ∧
      ((∃ q ∈ tbl, p q = true ∧ q.datum = r.datum ∧ q.pl = r.pl) → r'.pl = r.pl) ∧
      ((¬ ∃ q ∈ tbl, p q = true ∧ q.datum = r.datum ∧ q.pl = r.pl) → r'.pl = -1) := by
  refine ⟨by simp [filterTable], ?_⟩
  intro k r hk
  have hg := @validMask_iff g (fun r => (r.datum, r.gl)) tbl r
  have hq := @validMask_iff p (fun r => (r.datum, r.pl)) tbl r
  simp only [Prod.mk.injEq] at hg hq
  have he : (filterTable (some g) (some p) tbl)[k]? = some { r with
      gl := if validMask (some g) (fun r => (r.datum, r.gl)) tbl r && (validMask (some g) (fun r => (r.datum, r.gl)) tbl r || validMask (some p) (fun r => (r.datum, r.pl)) tbl r) then r.gl else -1,
      pl := if validMask (some p) (fun r => (r.datum, r.pl)) tbl r && (validMask (some g) (fun r => (r.datum, r.gl)) tbl r || validMask (some p) (fun r => (r.datum, r.pl)) tbl r) then r.pl else -1 } := by
    unfold filterTable
    rw [List.getElem?_map, hk]
    rfl
  refine ⟨_, he, rfl, rfl, rfl, rfl, rfl, rfl, ?_, ?_, ?_, ?_⟩
  · intro h; simp [hg.2 h]
  · intro h
    have : validMask (some g) (fun r => (r.datum, r.gl)) tbl r = false := by
      rw [Bool.eq_false_iff]; exact fun hc => h (hg.1 hc)
    simp [this]
  · intro h; simp [hq.2 h]
  · intro h
    have : validMask (some p) (fun r => (r.datum, r.pl)) tbl r = false := by
      rw [Bool.eq_false_iff]; exact fun hc => h (hq.1 hc)
    simp [this]

/-- **C40 (pixels).** For every cache and every filters: the pixels of each image that passes the datum filter are
all kept, the rows of the other images are dropped. -/
theorem C40_pixels (d g p : Option Expr) (tables : List (List SRow)) (k : Int) :
    ((((filterTables d g p tables).flatten).filter (fun r => decide (r.datum = k))).map SRow.count).sum
      = (((tables.flatten.filter (d.getD fun _ => true)).filter (fun r => decide (r.datum = k))).map SRow.count).sum := by
  unfold filterTables
  induction tables with
  | nil => rfl
  | cons t ts ih =>
    rw [List.map_cons, List.flatten_cons, List.flatten_cons, List.filter_append, List.filter_append, List.filter_append,
      List.map_append, List.map_append, List.sum_append, List.sum_append, ih]
    congr 1
    have : readTable d t = t.filter (d.getD fun _ => true) := by
      cases d with
      | none => simp [readTable]
      | some e => rfl
    rw [← this]
    unfold filterTable
    dsimp only
    rw [List.filter_map, List.map_map]
    rfl

/-- **C40 (no filter).** A missing filter is a filter that every row passes. -/
theorem C40_none (d g p : Option Expr) (tables : List (List SRow)) :
    filterTables d g p tables = filterTables (some (d.getD fun _ => true)) (some (g.getD fun _ => true)) (some (p.getD fun _ => true)) tables := by
  have hr : ∀ t, readTable (some (d.getD fun _ => true)) t = readTable d t := by
    intro t
    cases d with
    | none => simp [readTable]
    | some e => rfl
  have hv : ∀ (e : Option Expr) (f : SRow → Int × Int) (t : List SRow), ∀ r ∈ t, validMask (some (e.getD fun _ => true)) f t r = validMask e f t r := by
    intro e f t r hr
    cases e with
    | none =>
      have : validMask (some fun _ => true) f t r = true := validMask_iff.2 ⟨r, hr, rfl, rfl⟩
      exact this
    | some e => rfl
  unfold filterTables
  apply List.map_congr_left
  intro t _
  rw [hr]
  unfold filterTable
  apply List.map_congr_left
  intro r hr
  rw [hv g _ _ r hr, hv p _ _ r hr]

/-- **C56 (segmentation).** Computing with a datum filter gives the matrix of the evaluator filtered by it. -/
theorem C56_segmentation (n : Nat) (d : Expr) (tables : List (List SRow)) (i j : Nat) :
    confusionMatrix n (some d) tables i j = confusionMatrix n none (filterTables (some d) none none tables) i j := by
  have : filterTables (some d) none none tables = tables.map (readTable (some d)) := by
    unfold filterTables
    apply List.map_congr_left
    intro t _
    unfold filterTable validMask
    simp
  rw [this]
  unfold confusionMatrix
  rw [List.foldl_map]
  rfl

/-! ## The meaning of a filter -/

/-- The image without the masks whose labels are rejected. -/
def Seg.drop (s : Seg) (fg fp : String → Bool) : Seg :=
  { s with gts := s.gts.filter (fun x => fg x.label), pds := s.pds.filter (fun x => fp x.label) }

theorem itemAt_filter {size : Nat} {items : List Item} (h : ItemsOk size items) (f : String → Bool) (x : Nat) :
    itemAt (items.filter (fun it => f it.label)) x = (itemAt items x).filter f := by
  have hd := h.disjoint
  clear h
  induction items with
  | nil => rfl
  | cons it items ih =>
    unfold Disjoint at hd
    rw [List.map_cons, List.pairwise_cons] at hd
    have ih := ih hd.2
    unfold itemAt at ih ⊢
    by_cases hb : bit it.mask x = true
    · have hnone : ∀ l : List Item, (∀ y ∈ l, y ∈ items) → l.find? (fun it => bit it.mask x) = none := by
        intro l hl
        rw [List.find?_eq_none]
        intro y hy hc
        exact hd.1 y.mask (List.mem_map_of_mem (hl y hy)) x ⟨hb, hc⟩
      rw [List.find?_cons_of_pos (p := fun it : Item => bit it.mask x) hb, List.filter_cons]
      by_cases hf : f it.label = true
      · rw [if_pos hf, List.find?_cons_of_pos (p := fun it : Item => bit it.mask x) hb]
        simp [Option.filter, hf]
      · rw [if_neg hf, hnone _ (fun y hy => (List.mem_filter.1 hy).1)]
        simp [Option.filter, hf]
    · rw [List.find?_cons_of_neg (p := fun it : Item => bit it.mask x) hb, List.filter_cons]
      by_cases hf : f it.label = true
      · rw [if_pos hf, List.find?_cons_of_neg (p := fun it : Item => bit it.mask x) hb]; exact ih
      · rw [if_neg hf]; exact ih

/-- The id after a filter. -/
def relabel (L : List String) (f : String → Bool) (v : Int) : Int :=
  if v = -1 then -1 else if f ((L[v.toNat]?).getD "") then v else -1

theorem relabel_sval {L : List String} (f : String → Bool) (o : Option String) (h : ∀ v ∈ o, v ∈ L) :
    relabel L f (sval L o) = sval L (o.filter f) := by
  cases o with
  | none => rfl
  | some v =>
    have hv := h v rfl
    have hne : ((L.idxOf v : Nat) : Int) ≠ -1 := by omega
    have hget : L[L.idxOf v]? = some v := by
      rw [List.getElem?_eq_getElem (List.idxOf_lt_length_of_mem hv)]; simp
    simp only [sval, relabel, if_neg hne, Int.toNat_natCast, hget, Option.getD_some]
    cases hf : f v <;> simp [Option.filter, hf]

/-- A filter expression decided by the number of the image and the label of the ground truth. -/
def OnGt (f : Nat → String → Bool) (e : Expr) : Prop := ∀ r : SRow, r.gl ≠ -1 → e r = f r.datum.toNat (r.gtLabel.getD "")

/-- A filter expression decided by the number of the image and the label of the prediction. -/
def OnPd (f : Nat → String → Bool) (e : Expr) : Prop := ∀ r : SRow, r.pl ≠ -1 → e r = f r.datum.toNat (r.pdLabel.getD "")

/-- A filter expression decided by the number of the image. -/
def OnDatum (f : Nat → Bool) (e : Expr) : Prop := ∀ r : SRow, e r = f r.datum.toNat

/-- **C40 (meaning).** For filters decided by the image (datums) and by the image and the label of a mask (ground
truths, predictions), any history, and any division and order of the rows: the matrix after the filter is the
matrix of the accepted images with the rejected masks left out. -/
theorem C40_meaning (calls : List (List Seg)) (hok : ∀ s ∈ calls.flatten, SegOk s)
    (hs : (calls.flatten.map Seg.size).sum < 2 ^ 64) {tables : List (List SRow)}
    (hp : tables.flatten.Perm (Loader.init.addAll calls).rows.flatten)
    {fd : Nat → Bool} {fg fp : Nat → String → Bool} {d g p : Expr} (hd : OnDatum fd d) (hg : OnGt fg g) (hq : OnPd fp p)
    {a b : Option String} (ha : ∀ v ∈ a, v ∈ (Loader.init.addAll calls).labels) (hb : ∀ v ∈ b, v ∈ (Loader.init.addAll calls).labels) :
    confusionMatrix (Loader.init.addAll calls).labels.length none (filterTables (some d) (some g) (some p) tables)
        (scode (Loader.init.addAll calls).labels a) (scode (Loader.init.addAll calls).labels b)
      = ((calls.flatten.zipIdx.filter (fun sk => fd sk.2)).map (fun sk => pixelsOf (sk.1.drop (fg sk.2) (fp sk.2)) a b)).sum := by
  have hl := loaded calls
  have hsz : ∀ s ∈ calls.flatten, s.size < 2 ^ 64 := fun s hsm => lt_of_le_of_lt (le_sum_of_mem hsm) hs
  have htot := rows_total calls hok hsz hp
  -- the columns of a stored row
  have hcol : ∀ r ∈ tables.flatten,
      (r.gl ≠ -1 → r.gtLabel = (Loader.init.addAll calls).labels[r.gl.toNat]?) ∧ (r.pl ≠ -1 → r.pdLabel = (Loader.init.addAll calls).labels[r.pl.toNat]?) := by
    intro r hr
    obtain ⟨k, s, L', _, ⟨t, ht⟩, _, hm⟩ := mem_rows (hp.mem_iff.1 hr)
    obtain ⟨h1, h2⟩ := segRows_cols hm
    constructor
    · intro hne
      rcases h1 with e | ⟨i, e, hi, e'⟩
      · exact absurd e hne
      · rw [e, e', Int.toNat_natCast, ← ht, List.getElem?_append_left hi]
    · intro hne
      rcases h2 with e | ⟨i, e, hi, e'⟩
      · exact absurd e hne
      · rw [e, e', Int.toNat_natCast, ← ht, List.getElem?_append_left hi]
  -- the ids after the filter
  have hrel : ∀ t ∈ tables, filterTable (some g) (some p) (readTable (some d) t)
      = (t.filter d).map (fun r => { r with
          gl := relabel (Loader.init.addAll calls).labels (fg r.datum.toNat) r.gl,
          pl := relabel (Loader.init.addAll calls).labels (fp r.datum.toNat) r.pl }) := by
    intro t ht
    have hsub : ∀ r ∈ t.filter d, r ∈ tables.flatten := fun r hr => List.mem_flatten_of_mem ht (List.mem_filter.1 hr).1
    unfold filterTable readTable
    apply List.map_congr_left
    intro r hr
    have e1 : (if validMask (some g) (fun r => (r.datum, r.gl)) (t.filter d) r then r.gl else -1)
        = relabel (Loader.init.addAll calls).labels (fg r.datum.toNat) r.gl := by
      unfold relabel
      by_cases hne : r.gl = -1
      · rw [if_pos hne]; split <;> [exact hne; rfl]
      · rw [if_neg hne, ← (hcol r (hsub r hr)).1 hne]
        have : validMask (some g) (fun r => (r.datum, r.gl)) (t.filter d) r = fg r.datum.toNat (r.gtLabel.getD "") := by
          rw [Bool.eq_iff_iff, validMask_iff]
          simp only [Prod.mk.injEq]
          constructor
          · rintro ⟨q, hq, hgq, h1, h2⟩
            rw [hg q (by rw [h2]; exact hne), (hcol q (hsub q hq)).1 (by rw [h2]; exact hne), h1, h2, ← (hcol r (hsub r hr)).1 hne] at hgq
            exact hgq
          · intro h
            exact ⟨r, hr, by rw [hg r hne]; exact h, rfl, rfl⟩
        rw [this]
    have e2 : (if validMask (some p) (fun r => (r.datum, r.pl)) (t.filter d) r then r.pl else -1)
        = relabel (Loader.init.addAll calls).labels (fp r.datum.toNat) r.pl := by
      unfold relabel
      by_cases hne : r.pl = -1
      · rw [if_pos hne]; split <;> [exact hne; rfl]
      · rw [if_neg hne, ← (hcol r (hsub r hr)).2 hne]
        have : validMask (some p) (fun r => (r.datum, r.pl)) (t.filter d) r = fp r.datum.toNat (r.pdLabel.getD "") := by
          rw [Bool.eq_iff_iff, validMask_iff]
          simp only [Prod.mk.injEq]
          constructor
          · rintro ⟨q, hq', hgq, h1, h2⟩
            rw [hq q (by rw [h2]; exact hne), (hcol q (hsub q hq')).2 (by rw [h2]; exact hne), h1, h2, ← (hcol r (hsub r hr)).2 hne] at hgq
            exact hgq
          · intro h
            exact ⟨r, hr, by rw [hq r hne]; exact h, rfl, rfl⟩
        rw [this]
    rw [← e1, ← e2]
    cases validMask (some g) (fun r => (r.datum, r.gl)) (t.filter d) r <;> cases validMask (some p) (fun r => (r.datum, r.pl)) (t.filter d) r <;> rfl
  have hflat : (filterTables (some d) (some g) (some p) tables).flatten
      = (tables.flatten.filter d).map (fun r => { r with
          gl := relabel (Loader.init.addAll calls).labels (fg r.datum.toNat) r.gl,
          pl := relabel (Loader.init.addAll calls).labels (fp r.datum.toNat) r.pl }) := by
    unfold filterTables
    rw [List.map_congr_left hrel, List.filter_flatten, List.map_flatten, List.map_map]
    rfl
  -- the entry of the matrix as a weighted sum over the stored rows
  have hentry : ∀ i j, rowSum (filterTables (some d) (some g) (some p) tables).flatten i j
      = wsum (fun r => if fd r.datum.toNat = true ∧ isSide i (relabel (Loader.init.addAll calls).labels (fg r.datum.toNat) r.gl) = true ∧
          isSide j (relabel (Loader.init.addAll calls).labels (fp r.datum.toNat) r.pl) = true then 1 else 0) tables.flatten := by
    intro i j
    rw [hflat]
    generalize tables.flatten = rows
    induction rows with
    | nil => rfl
    | cons r rows ih =>
      rw [wsum_cons, ← ih, List.filter_cons, ← hd r]
      by_cases hdr : d r = true
      · rw [if_pos hdr, List.map_cons, rowSum_cons]
        dsimp only
        congr 1
        simp only [Bool.and_eq_true, hdr, true_and]
        split <;> simp
      · rw [if_neg hdr]
        simp [hdr]
  have hle : wsum (fun _ => 1) (filterTables (some d) (some g) (some p) tables).flatten < 2 ^ 64 := by
    refine lt_of_le_of_lt ?_ (htot ▸ hs)
    rw [hflat]
    generalize tables.flatten = rows
    induction rows with
    | nil => exact Nat.le_refl _
    | cons r rows ih =>
      rw [List.filter_cons, wsum_cons]
      split
      · rw [List.map_cons, wsum_cons]; dsimp only; omega
      · omega
  have hc : ∀ o : Option String, (∀ v ∈ o, v ∈ (Loader.init.addAll calls).labels) → scode (Loader.init.addAll calls).labels o ≤ (Loader.init.addAll calls).labels.length := by
    intro o ho
    cases o with
    | none => simp [scode]
    | some v =>
      have := List.idxOf_lt_length_of_mem (ho v (by simp))
      simp only [scode]; omega
  rw [matrix_rows hle (hc a ha) (hc b hb), hentry]
  rw [dataset_hist (fun k gl pl => if fd k = true ∧ isSide (scode (Loader.init.addAll calls).labels a) (relabel (Loader.init.addAll calls).labels (fg k) gl) = true ∧
          isSide (scode (Loader.init.addAll calls).labels b) (relabel (Loader.init.addAll calls).labels (fp k) pl) = true then 1 else 0) calls hok hsz hp]
  have hside : ∀ (o w : Option String), (∀ v ∈ w, v ∈ (Loader.init.addAll calls).labels) →
      (isSide (scode (Loader.init.addAll calls).labels w) (sval (Loader.init.addAll calls).labels o) = true ↔ o = w) := by
    intro o w hw
    cases w with
    | none =>
      cases o with
      | none => simp [scode, sval, isSide]
      | some v => simp only [scode, sval, isSide, decide_eq_true_eq]; constructor <;> intro h; omega; cases h
    | some w =>
      have := sval_inj (o := o) (hw w rfl)
      simp only [scode, isSide, decide_eq_true_eq]
      exact this
  have himg : ∀ sk ∈ calls.flatten.zipIdx,
      ((List.range sk.1.size).map (fun x => if fd sk.2 = true ∧
          isSide (scode (Loader.init.addAll calls).labels a) (relabel (Loader.init.addAll calls).labels (fg sk.2) (sval (Loader.init.addAll calls).labels (itemAt sk.1.gts x))) = true ∧
          isSide (scode (Loader.init.addAll calls).labels b) (relabel (Loader.init.addAll calls).labels (fp sk.2) (sval (Loader.init.addAll calls).labels (itemAt sk.1.pds x))) = true then 1 else 0)).sum
      = if fd sk.2 = true then pixelsOf (sk.1.drop (fg sk.2) (fp sk.2)) a b else 0 := by
    intro sk hsk
    have hsm : sk.1 ∈ calls.flatten := (List.mem_zipIdx' (by exact hsk)).2 ▸ List.getElem_mem _
    have hin : ∀ items : List Item, (∀ it ∈ items, it ∈ sk.1.gts ++ sk.1.pds) → ∀ x, ∀ v ∈ itemAt items x, v ∈ (Loader.init.addAll calls).labels := by
      intro items hi x v hv
      obtain ⟨it, hit, rfl⟩ := itemAt_mem hv
      exact (hl.labels _).2 ⟨sk.1, hsm, it, hi it hit, rfl⟩
    have hok' := hok _ hsm
    by_cases hfd : fd sk.2 = true
    · rw [if_pos hfd, sum_ind]
      unfold pixelsOf Seg.drop
      apply List.countP_congr
      intro x _
      rw [decide_eq_true_eq, decide_eq_true_eq,
        relabel_sval _ _ (hin sk.1.gts (fun it hit => by simp [hit]) x), relabel_sval _ _ (hin sk.1.pds (fun it hit => by simp [hit]) x),
        hside _ _ ha, hside _ _ hb, itemAt_filter hok'.gts, itemAt_filter hok'.pds]
      simp [hfd]
    · rw [if_neg hfd]
      simp [hfd]
  rw [List.map_congr_left himg]
  generalize calls.flatten.zipIdx = l
  induction l with
  | nil => rfl
  | cons sk l ih =>
    rw [List.map_cons, List.sum_cons, ih, List.filter_cons]
    split <;> simp

/-! ## Fragmentation -/

/-- **C57 (batching), partial.** For filters decided by image and label the result does not depend on the division
and order of the rows. What is missing is false: see `C57_batching_violation`. -/
theorem C57_batching_partial (calls : List (List Seg)) (hok : ∀ s ∈ calls.flatten, SegOk s)
    (hs : (calls.flatten.map Seg.size).sum < 2 ^ 64) {tables tables' : List (List SRow)}
    (hp : tables.flatten.Perm (Loader.init.addAll calls).rows.flatten) (hp' : tables'.flatten.Perm (Loader.init.addAll calls).rows.flatten)
    {fd : Nat → Bool} {fg fp : Nat → String → Bool} {d g p : Expr} (hd : OnDatum fd d) (hg : OnGt fg g) (hq : OnPd fp p)
    {a b : Option String} (ha : ∀ v ∈ a, v ∈ (Loader.init.addAll calls).labels) (hb : ∀ v ∈ b, v ∈ (Loader.init.addAll calls).labels) :
    confusionMatrix (Loader.init.addAll calls).labels.length none (filterTables (some d) (some g) (some p) tables)
        (scode (Loader.init.addAll calls).labels a) (scode (Loader.init.addAll calls).labels b)
      = confusionMatrix (Loader.init.addAll calls).labels.length none (filterTables (some d) (some g) (some p) tables')
        (scode (Loader.init.addAll calls).labels a) (scode (Loader.init.addAll calls).labels b) := by
  rw [C40_meaning calls hok hs hp hd hg hq ha hb, C40_meaning calls hok hs hp' hd hg hq ha hb]

/-- One image with one ground truth (`color = red`) and one overlapping prediction (`color = blue`). -/
def colorSeg : Seg := ⟨"a", 2, [⟨[true, false], "x", some "red"⟩], [⟨[true, false], "y", some "blue"⟩], none⟩

/-- The filter `color == red`: the value of a row is the last one merged into it. -/
def isRed : Expr := fun r => decide (r.info.getLast? = some "red")

/-- **C57 (batching), violation.** A ground truth filter on a metadata field with the rows of an image in one table
keeps the ground truth; with the rows in two tables (as when a batch is full) the matched pixels lose it: the
result depends on the batching. -/
theorem C57_batching_violation :
    let rows := (Loader.init.addAll [[colorSeg]]).rows.flatten
    let one := filterTables none (some isRed) none [rows]
    let two := filterTables none (some isRed) none [rows.take 1, rows.drop 1]
    confusionMatrix 2 none one 1 2 = 1 ∧ confusionMatrix 2 none two 1 2 = 0 ∧ confusionMatrix 2 none two 0 2 = 1 := by
  decide +kernel

/-- **C50 (filtered cache), violation.** The labels extracted from a filtered cache need not be numbered from 0: after
keeping only the second label the dictionary is `{1: "y"}`, so an evaluator loaded from that cache without the
documented override has one label, looks up the missing index 0 and reads the counts of id 0. -/
theorem C50_filtered_violation :
    let rows := (Loader.init.addAll [[colorSeg]]).rows.flatten
    let t := filterTables none (some fun r => decide (r.gtLabel = some "y")) (some fun r => decide (r.pdLabel = some "y")) [rows]
    Verif.Shared.extractLabels (t.map (fun t => t.map labelCols)) = [(1, "y")] ∧
    confusionMatrix 2 none t 0 2 = 1 ∧ confusionMatrix 1 none t 0 1 = 0 := by
  decide +kernel

/-! ## C55 and C35 -/

/-- **C55 (segmentation).** For every history and every division and order of the rows, without filters: the number
of pixels is the sum of the sizes of the images, and the ground truth and prediction pixels are the pixels
within some mask. -/
theorem C55_info_segmentation (calls : List (List Seg)) (hok : ∀ s ∈ calls.flatten, SegOk s)
    (hs : (calls.flatten.map Seg.size).sum < 2 ^ 64) {tables : List (List SRow)}
    (hp : tables.flatten.Perm (Loader.init.addAll calls).rows.flatten) :
    (extractCounts none none none tables).2 = ((calls.flatten.map Seg.size).sum,
      (calls.flatten.map (fun s => (List.range s.size).countP (fun x => decide (itemAt s.gts x ≠ none)))).sum,
      (calls.flatten.map (fun s => (List.range s.size).countP (fun x => decide (itemAt s.pds x ≠ none)))).sum) := by
  have hl := loaded calls
  have hsz : ∀ s ∈ calls.flatten, s.size < 2 ^ 64 := fun s hsm => lt_of_le_of_lt (le_sum_of_mem hsm) hs
  have htot := rows_total calls hok hsz hp
  -- sums of tables
  have hsum : ∀ (q : SRow → Prop) [DecidablePred q], (tables.map (fun t => u64 (((t.filter (fun r => decide (q r))).map SRow.count).sum : Nat))).sum
      = wsum (fun r => if q r then 1 else 0) tables.flatten := by
    intro q _
    have hq : ∀ l : List SRow, ((l.filter (fun r => decide (q r))).map SRow.count).sum = wsum (fun r => if q r then 1 else 0) l ∧
        wsum (fun r => if q r then 1 else 0) l ≤ wsum (fun _ => 1) l := by
      intro l
      induction l with
      | nil => exact ⟨rfl, Nat.le_refl _⟩
      | cons r l ih =>
        rw [List.filter_cons, wsum_cons, wsum_cons, ← ih.1]
        have h2 := ih.2
        rw [← ih.1] at h2
        by_cases hr : q r <;> simp [hr] <;> omega
    have hb : wsum (fun _ => 1) tables.flatten < 2 ^ 64 := by rw [htot]; exact hs
    clear hp htot
    induction tables with
    | nil => rfl
    | cons t ts ih =>
      rw [List.flatten_cons, wsum_append] at hb
      rw [List.map_cons, List.sum_cons, ih (by omega), List.flatten_cons, wsum_append, (hq t).1, u64_small]
      have := (hq t).2
      omega
  have hmap : tables.map (readTable none) = tables := List.map_id tables
  have h1 := hsum (fun _ => True)
  have h2 := hsum (fun r => r.gl ≥ 0)
  have h3 := hsum (fun r => r.pl ≥ 0)
  have key : ∀ o : Option String, sval (Loader.init.addAll calls).labels o ≥ 0 ↔ o ≠ none := by
    intro o
    cases o with
    | none => simp [sval]
    | some v => simp [sval]
  unfold extractCounts
  dsimp only
  rw [hmap]
  simp only [readTable]
  refine Prod.ext ?_ (Prod.ext ?_ ?_)
  · dsimp only
    simp only [decide_true, List.filter_true, if_true] at h1
    rw [h1, htot]
  · dsimp only
    push_cast at h2 ⊢
    rw [h2, dataset_hist (fun _ a _ => if a ≥ 0 then 1 else 0) calls hok hsz hp,
      ← zipIdx_map_fst calls.flatten (fun s : Seg => (List.range s.size).countP (fun x => decide (itemAt s.gts x ≠ none))) 0]
    congr 1
    apply List.map_congr_left
    intro sk _
    rw [sum_ind]
    apply List.countP_congr
    intro x _
    rw [decide_eq_true_eq, decide_eq_true_eq]
    exact key _
  · dsimp only
    push_cast at h3 ⊢
    rw [h3, dataset_hist (fun _ _ b => if b ≥ 0 then 1 else 0) calls hok hsz hp,
      ← zipIdx_map_fst calls.flatten (fun s : Seg => (List.range s.size).countP (fun x => decide (itemAt s.pds x ≠ none))) 0]
    congr 1
    apply List.map_congr_left
    intro sk _
    rw [sum_ind]
    apply List.countP_congr
    intro x _
    rw [decide_eq_true_eq, decide_eq_true_eq]
    exact key _

/-- **C55 (datums, segmentation), violation.** If the rows of an image are in two tables the image is counted
twice. -/
theorem C55_datums_segmentation_violation :
    let rows := (Loader.init.addAll [[colorSeg]]).rows.flatten
    (extractCounts none none none [rows]).1 = 1 ∧ (extractCounts none none none [rows.take 1, rows.drop 1]).1 = 2 := by
  decide +kernel

/-- **C35 (segmentation).** `finalize` fails exactly on an empty cache, otherwise it leaves the rows as they are; it
keeps no state, so a second call gives the same evaluator. A cache with at least one image is not empty. -/
theorem C35_segmentation (tables : List (List SRow)) (override : Option (List (Int × String))) :
    (finalize tables override = .error .empty ↔ tables.flatten = []) ∧
    (tables.flatten ≠ [] → ∃ ev, finalize tables override = .ok ev ∧ ev.tables = tables ∧ finalize ev.tables override = .ok ev) := by
  have h : tables.flatten.length = 0 ↔ tables.flatten = [] := List.length_eq_zero_iff
  constructor
  · unfold finalize
    constructor
    · intro he
      split at he
      · rename_i h0; exact h.1 h0
      · cases he
    · intro he
      rw [if_pos (h.2 he)]
  · intro hne
    have h0 : ¬ tables.flatten.length = 0 := fun hc => hne (h.1 hc)
    refine ⟨⟨tables, Verif.Shared.labelsOf (tables.map (fun t => t.map labelCols)) override⟩, ?_, rfl, ?_⟩ <;>
    · unfold finalize
      rw [if_neg h0]

/-- **C35 (segmentation, data).** After at least one image the cache is not empty, whatever the image holds. -/
theorem C35_segmentation_data (calls : List (List Seg)) (hne : calls.flatten ≠ []) {tables : List (List SRow)}
    (hp : tables.flatten.Perm (Loader.init.addAll calls).rows.flatten) : tables.flatten ≠ [] := by
  intro he
  rw [he] at hp
  have hnil := hp.symm.eq_nil
  obtain ⟨s, l, hsl⟩ := List.exists_cons_of_ne_nil hne
  obtain ⟨L, _, _, hr⟩ := (loaded calls).rows 0 s (by rw [hsl]; rfl)
  have hm := List.mem_of_getElem? hr
  rw [List.flatten_eq_nil_iff] at hnil
  have := hnil _ hm
  unfold segRows at this
  simp at this

example : OnDatum (fun k => k == 1) (fun r => r.datum.toNat == 1) ∧ OnGt (fun _ v => v == "x") (fun r => r.gtLabel.getD "" == "x") ∧
    OnPd (fun _ v => v != "y") (fun r => r.pdLabel.getD "" != "y") := ⟨fun _ => rfl, fun _ _ => rfl, fun _ _ => rfl⟩

end Verif.Segmentation
