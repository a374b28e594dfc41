import Verif.Detection.Filter
import Verif.Detection.EndToEnd

/-! # C33, C35, C50, C55 for detection -/

namespace Verif.Detection

open Verif.Classification (unique)
open Verif.Shared (LabelRow labelsOf extractLabels C50_extract)

/-! ## Vocabulary -/

/-- A row satisfies an optional condition. -/
def Holds (e : Option Expr) (r : FRow) : Prop := ∀ f, e = some f → f r = true

/-- Ground truth `i` of datum `k` with label `l`, as in row `r`. -/
def HasGt (k i l : Int) (r : FRow) : Prop := r.row.datum = k ∧ r.row.gt = i ∧ r.row.gl = l

/-- Prediction `i` of datum `k` with label `l`, as in row `r`. -/
def HasPd (k i l : Int) (r : FRow) : Prop := r.row.datum = k ∧ r.row.pd = i ∧ r.row.pl = l

/-- The conditions ask for this ground truth: some row of it passes. -/
def GtAsked (d g : Option Expr) (tbl : List FRow) (k i l : Int) : Prop := ∃ r ∈ tbl, HasGt k i l r ∧ Holds d r ∧ Holds g r

/-- The conditions ask for this prediction. -/
def PdAsked (d p : Option Expr) (tbl : List FRow) (k i l : Int) : Prop := ∃ r ∈ tbl, HasPd k i l r ∧ Holds d r ∧ Holds p r

/-- A well-formed row: a missing side has all its numbers cleared and IoU 0, and one side is there. -/
structure RowForm (r : Row) : Prop where
  gt : r.gt < 0 → r.gt = -1 ∧ r.gl = -1 ∧ r.iou = 0
  pd : r.pd < 0 → r.pd = -1 ∧ r.pl = -1 ∧ r.score = -1 ∧ r.iou = 0
  some : 0 ≤ r.gt ∨ 0 ≤ r.pd

/-! ## Lemmas -/

theorem mem_unique {β : Type} [DecidableEq β] {l : List β} {x : β} : x ∈ unique l ↔ x ∈ l := by
  unfold unique
  rw [List.mem_dedup]

theorem mem_readTable {d : Option Expr} {tbl : List FRow} {r : FRow} : r ∈ readTable d tbl ↔ r ∈ tbl ∧ Holds d r := by
  unfold readTable Holds
  cases d with
  | none => simp
  | some e => simp [List.mem_filter]

theorem validMask_iff {e : Option Expr} {f : FRow → Int × Int × Int} {tbl : List FRow} {r : FRow} (hr : r ∈ tbl) :
    validMask e f tbl r = true ↔ ∃ r' ∈ tbl, Holds e r' ∧ f r' = f r := by
  unfold validMask Holds
  cases e with
  | none => simpa using ⟨r, hr, rfl⟩
  | some e =>
    simp only [List.any_eq_true, decide_eq_true_eq]
    constructor
    · rintro ⟨x, hx, rfl⟩
      rw [mem_unique, List.mem_map] at hx
      obtain ⟨r', hr', he⟩ := hx
      rw [List.mem_filter] at hr'
      exact ⟨r', hr'.1, fun f hf => by cases hf; exact hr'.2, he⟩
    · rintro ⟨r', hr', he, hf⟩
      refine ⟨f r, ?_, rfl⟩
      rw [mem_unique, List.mem_map]
      exact ⟨r', List.mem_filter.2 ⟨hr', he e rfl⟩, hf⟩

theorem gtCols_iff {x y : FRow} : gtCols x = gtCols y ↔ HasGt y.row.datum y.row.gt y.row.gl x := by
  unfold gtCols HasGt
  simp only [Prod.mk.injEq]

theorem pdCols_iff {x y : FRow} : pdCols x = pdCols y ↔ HasPd y.row.datum y.row.pd y.row.pl x := by
  unfold pdCols HasPd
  simp only [Prod.mk.injEq]

/-- The rows after a filter, with the conditions spelt out. -/
theorem mem_filterTable (d g p : Option Expr) (tbl : List FRow) (x : FRow) :
    x ∈ filterTable g p (readTable d tbl) ↔ ∃ r ∈ tbl, Holds d r ∧ ∃ vg vp : Bool,
      (vg = true ↔ GtAsked d g tbl r.row.datum r.row.gt r.row.gl) ∧ (vp = true ↔ PdAsked d p tbl r.row.datum r.row.pd r.row.pl) ∧
      ((vg = true ∧ 0 ≤ r.row.gt) ∨ (vp = true ∧ 0 ≤ r.row.pd)) ∧ x = clear vg vp r := by
  unfold filterTable
  simp only [List.mem_map, List.mem_filter]
  have hg : ∀ r ∈ readTable d tbl, (validMask g gtCols (readTable d tbl) r = true ↔ GtAsked d g tbl r.row.datum r.row.gt r.row.gl) := by
    intro r hr
    rw [validMask_iff hr]
    unfold GtAsked
    constructor
    · rintro ⟨r', hr', he, hf⟩
      rw [mem_readTable] at hr'
      exact ⟨r', hr'.1, gtCols_iff.1 hf, hr'.2, he⟩
    · rintro ⟨r', hr', hf, hd, he⟩
      exact ⟨r', mem_readTable.2 ⟨hr', hd⟩, he, gtCols_iff.2 hf⟩
  have hp : ∀ r ∈ readTable d tbl, (validMask p pdCols (readTable d tbl) r = true ↔ PdAsked d p tbl r.row.datum r.row.pd r.row.pl) := by
    intro r hr
    rw [validMask_iff hr]
    unfold PdAsked
    constructor
    · rintro ⟨r', hr', he, hf⟩
      rw [mem_readTable] at hr'
      exact ⟨r', hr'.1, pdCols_iff.1 hf, hr'.2, he⟩
    · rintro ⟨r', hr', hf, hd, he⟩
      exact ⟨r', mem_readTable.2 ⟨hr', hd⟩, he, pdCols_iff.2 hf⟩
  have hkeep : ∀ (vg vp : Bool) (r : FRow),
      (!(!(vg || vp) || (decide ((clear (vg && (vg || vp)) (vp && (vg || vp)) r).row.gt < 0) &&
        decide ((clear (vg && (vg || vp)) (vp && (vg || vp)) r).row.pd < 0)))) = true ↔
      ((vg = true ∧ 0 ≤ r.row.gt) ∨ (vp = true ∧ 0 ≤ r.row.pd)) := by
    intro vg vp r
    cases vg <;> cases vp <;> simp [clear]
  have habs : ∀ (vg vp : Bool) (r : FRow), clear (vg && (vg || vp)) (vp && (vg || vp)) r = clear vg vp r := by
    intro vg vp r
    cases vg <;> cases vp <;> rfl
  constructor
  · rintro ⟨r, ⟨hr, hk⟩, rfl⟩
    rw [hkeep] at hk
    rw [habs]
    exact ⟨r, (mem_readTable.1 hr).1, (mem_readTable.1 hr).2, _, _, hg r hr, hp r hr, hk, rfl⟩
  · rintro ⟨r, hr, hd, vg, vp, h1, h2, hk, rfl⟩
    have hr' := mem_readTable.2 ⟨hr, hd⟩
    have e1 : validMask g gtCols (readTable d tbl) r = vg := by
      rw [Bool.eq_iff_iff, hg r hr', h1]
    have e2 : validMask p pdCols (readTable d tbl) r = vp := by
      rw [Bool.eq_iff_iff, hp r hr', h2]
    refine ⟨r, ⟨hr', ?_⟩, ?_⟩
    · rw [e1, e2, hkeep]
      exact hk
    · rw [e1, e2, habs]

open Classical in
theorem exists_masks (A B : Prop) : ∃ vg vp : Bool, (vg = true ↔ A) ∧ (vp = true ↔ B) :=
  ⟨decide A, decide B, by simp, by simp⟩

/-! ## C33 -/

/-- **C33 (ground truths).** The ground truths after the filter are exactly the ones asked for: some row
of the ground truth satisfies the datum and the ground truth condition. -/
theorem C33_groundtruths (d g p : Option Expr) (tbl : List FRow) (k i l : Int) (hi : 0 ≤ i) :
    (∃ r ∈ filterTable g p (readTable d tbl), HasGt k i l r) ↔ GtAsked d g tbl k i l := by
  constructor
  · rintro ⟨x, hx, h1, h2, h3⟩
    rw [mem_filterTable] at hx
    obtain ⟨r, hr, hd, vg, vp, hg, hp, hk, rfl⟩ := hx
    cases vg with
    | false => simp only [clear, Bool.false_eq_true, if_false] at h2; omega
    | true =>
      simp only [clear, if_true] at h1 h2 h3
      rw [← h1, ← h2, ← h3]
      exact hg.1 rfl
  · rintro ⟨r, hr, ⟨rfl, rfl, rfl⟩, hd, he⟩
    obtain ⟨vg, vp, hg, hp⟩ := exists_masks (GtAsked d g tbl r.row.datum r.row.gt r.row.gl) (PdAsked d p tbl r.row.datum r.row.pd r.row.pl)
    have hvg : vg = true := hg.2 ⟨r, hr, ⟨rfl, rfl, rfl⟩, hd, he⟩
    refine ⟨clear vg vp r, (mem_filterTable d g p tbl _).2 ⟨r, hr, hd, vg, vp, hg, hp, Or.inl ⟨hvg, hi⟩, rfl⟩, ?_⟩
    subst hvg
    exact ⟨rfl, rfl, rfl⟩

/-- **C33 (predictions).** The predictions after the filter are exactly the ones asked for, with their
scores. -/
theorem C33_predictions (d g p : Option Expr) (tbl : List FRow) (k i l : Int) (hi : 0 ≤ i) (s : Rat) :
    (∃ r ∈ filterTable g p (readTable d tbl), HasPd k i l r ∧ r.row.score = s) ↔
      PdAsked d p tbl k i l ∧ ∃ r ∈ tbl, Holds d r ∧ HasPd k i l r ∧ r.row.score = s := by
  constructor
  · rintro ⟨x, hx, ⟨h1, h2, h3⟩, hs⟩
    rw [mem_filterTable] at hx
    obtain ⟨r, hr, hd, vg, vp, hg, hp, hk, rfl⟩ := hx
    cases vp with
    | false => simp only [clear, Bool.false_eq_true, if_false] at h2; omega
    | true =>
      simp only [clear, if_true] at h1 h2 h3 hs
      subst h1; subst h2; subst h3; subst hs
      exact ⟨hp.1 rfl, r, hr, hd, ⟨rfl, rfl, rfl⟩, rfl⟩
  · rintro ⟨ha, r, hr, hd, ⟨rfl, rfl, rfl⟩, hs⟩
    obtain ⟨vg, vp, hg, hp⟩ := exists_masks (GtAsked d g tbl r.row.datum r.row.gt r.row.gl) (PdAsked d p tbl r.row.datum r.row.pd r.row.pl)
    have hvp : vp = true := hp.2 ha
    refine ⟨clear vg vp r, (mem_filterTable d g p tbl _).2 ⟨r, hr, hd, vg, vp, hg, hp, Or.inr ⟨hvp, hi⟩, rfl⟩, ?_⟩
    subst hvp
    exact ⟨⟨rfl, rfl, rfl⟩, hs⟩

/-- **C33 (pairs).** The pairs after the filter are exactly the pairs whose two sides are asked for, with
their IoU and score. -/
theorem C33_pairs (d g p : Option Expr) (tbl : List FRow) (k i l j m : Int) (hi : 0 ≤ i) (hj : 0 ≤ j) (u s : Rat) :
    (∃ r ∈ filterTable g p (readTable d tbl), HasGt k i l r ∧ HasPd k j m r ∧ r.row.iou = u ∧ r.row.score = s) ↔
      GtAsked d g tbl k i l ∧ PdAsked d p tbl k j m ∧
        ∃ r ∈ tbl, Holds d r ∧ HasGt k i l r ∧ HasPd k j m r ∧ r.row.iou = u ∧ r.row.score = s := by
  constructor
  · rintro ⟨x, hx, ⟨h1, h2, h3⟩, ⟨h4, h5, h6⟩, hu, hs⟩
    rw [mem_filterTable] at hx
    obtain ⟨r, hr, hd, vg, vp, hg, hp, hk, rfl⟩ := hx
    cases vg with
    | false => simp only [clear, Bool.false_eq_true, if_false] at h2; omega
    | true =>
      cases vp with
      | false => simp only [clear, Bool.false_eq_true, if_false] at h5; omega
      | true =>
        simp only [clear, if_true] at h1 h2 h3 h4 h5 h6 hs
        have hu' : r.row.iou = u := hu
        subst h1; subst h2; subst h3; subst h5; subst h6; subst hu'; subst hs
        exact ⟨hg.1 rfl, hp.1 rfl, r, hr, hd, ⟨rfl, rfl, rfl⟩, ⟨rfl, rfl, rfl⟩, rfl, rfl⟩
  · rintro ⟨ha, hb, r, hr, hd, ⟨rfl, rfl, rfl⟩, ⟨h4, rfl, rfl⟩, hu, hs⟩
    refine ⟨clear true true r, (mem_filterTable d g p tbl _).2 ⟨r, hr, hd, true, true, ⟨fun _ => ha, fun _ => rfl⟩,
      ⟨fun _ => hb, fun _ => rfl⟩, Or.inl ⟨rfl, hi⟩, rfl⟩, ⟨rfl, rfl, rfl⟩, ⟨rfl, rfl, rfl⟩, hu, hs⟩

/-- **C33 (removed sides).** Every row after the filter comes from a row of the source with the same
datum, texts and metadata. If its ground truth was removed, that side is cleared and the IoU is 0,
likewise the prediction; well-formed rows stay well-formed. -/
theorem C33_rows (d g p : Option Expr) (tbl : List FRow) {x : FRow} (hx : x ∈ filterTable g p (readTable d tbl)) :
    ∃ r ∈ tbl, Holds d r ∧ x.row.datum = r.row.datum ∧ x.datumUid = r.datumUid ∧ x.gtUid = r.gtUid ∧ x.gtLabel = r.gtLabel ∧
      x.pdUid = r.pdUid ∧ x.pdLabel = r.pdLabel ∧ x.info = r.info ∧
      (¬ GtAsked d g tbl r.row.datum r.row.gt r.row.gl → x.row.gt = -1 ∧ x.row.gl = -1 ∧ x.row.iou = 0) ∧
      (¬ PdAsked d p tbl r.row.datum r.row.pd r.row.pl → x.row.pd = -1 ∧ x.row.pl = -1 ∧ x.row.score = -1 ∧ x.row.iou = 0) ∧
      (RowForm r.row → RowForm x.row) := by
  rw [mem_filterTable] at hx
  obtain ⟨r, hr, hd, vg, vp, hg, hp, hk, rfl⟩ := hx
  refine ⟨r, hr, hd, rfl, rfl, rfl, rfl, rfl, rfl, rfl, ?_, ?_, ?_⟩
  · intro h
    have : vg = false := by rw [← Bool.not_eq_true, hg]; exact h
    subst this
    simp [clear]
  · intro h
    have : vp = false := by rw [← Bool.not_eq_true, hp]; exact h
    subst this
    simp [clear]
  · intro hf
    obtain ⟨f1, f2, f3⟩ := hf
    cases vg <;> cases vp <;> simp [clear] at hk ⊢
    · exact ⟨by simp, f2 |> fun h => by simp; omega, by simp; omega⟩
    · exact ⟨by simp; omega, by simp, by simp; omega⟩
    · exact ⟨f1, f2, f3⟩

instance (e : Option Expr) (r : FRow) : Decidable (Holds e r) :=
  match e with
  | none => isTrue (by simp [Holds])
  | some f => decidable_of_iff (f r = true) (by simp [Holds])

/-- Where the rows of the filtered cache come from. -/
theorem mem_filtered {d g p : Option Expr} {tables tables' : List (List FRow)} (h : Stored (filterTables d g p tables) tables') (x : FRow) :
    x ∈ tables'.flatten ↔ ∃ tbl ∈ tables, x ∈ filterTable g p (readTable d tbl) := by
  rw [stored_mem_iff h]
  unfold filterTables
  rw [← List.flatMap_def, List.mem_flatMap]

theorem rowsIn_mem {tables : List (List FRow)} {tbl : List FRow} (h : tbl ∈ tables) {r : FRow} (hr : r ∈ tbl) :
    r.row ∈ (rowsIn tables).flatten := by
  rw [rowsIn_flatten]
  exact List.mem_map_of_mem (List.mem_flatten.2 ⟨tbl, h, hr⟩)

theorem filtered_aligned {d g p : Option Expr} {tables tables' : List (List FRow)} (h : Stored (filterTables d g p tables) tables')
    (ha : Aligned (rowsIn tables)) : Aligned (rowsIn tables') := by
  apply stored_aligned h
  unfold filterTables
  unfold Aligned at ha
  rw [List.pairwise_map] at ha ⊢
  refine ha.imp ?_
  intro a b hab x hx y hy
  obtain ⟨rx, hrx, _, ex, _⟩ := C33_rows d g p a hx
  obtain ⟨ry, hry, _, ey, _⟩ := C33_rows d g p b hy
  rw [ex, ey]
  exact hab _ (List.mem_map_of_mem hrx) _ (List.mem_map_of_mem hry)

/-- The rows after the filter: each side unchanged or cleared. -/
theorem filtered_row {d g p : Option Expr} {tables tables' : List (List FRow)} (h : Stored (filterTables d g p tables) tables')
    {y : Row} (hy : y ∈ (rowsIn tables').flatten) : ∃ r ∈ (rowsIn tables).flatten, y.datum = r.datum ∧
      ((y.gt = r.gt ∧ y.gl = r.gl) ∨ (y.gt = -1 ∧ y.gl = -1)) ∧ ((y.pd = r.pd ∧ y.pl = r.pl ∧ y.score = r.score) ∨ (y.pd = -1 ∧ y.pl = -1)) ∧
      (y.iou = r.iou ∨ y.iou = 0) ∧ (0 ≤ y.gt → 0 ≤ y.pd → y.iou = r.iou) := by
  rw [rowsIn_flatten] at hy
  obtain ⟨x, hx, rfl⟩ := List.mem_map.1 hy
  obtain ⟨tbl, htbl, hx⟩ := (mem_filtered h x).1 hx
  rw [mem_filterTable] at hx
  obtain ⟨r, hr, _, vg, vp, _, _, _, rfl⟩ := hx
  refine ⟨r.row, rowsIn_mem htbl hr, rfl, ?_⟩
  cases vg <;> cases vp <;> simp [clear]

/-- **C33 (evaluator).** If the source cache meets the conditions of C26-C32, so does the filtered cache;
those theorems then hold for the filtered evaluator. -/
theorem C33_cacheOk {d g p : Option Expr} {tables tables' : List (List FRow)} (h : Stored (filterTables d g p tables) tables')
    (hc : CacheOk (rowsIn tables)) : CacheOk (rowsIn tables') := by
  have hall : ∀ r ∈ (rowsIn tables).flatten, (0 ≤ r.iou ∧ r.iou ≤ 1) ∧ RowOk r := by
    intro r hr
    obtain ⟨t, ht, hr⟩ := List.mem_flatten.1 hr
    exact ⟨hc.iou t ht r hr, hc.rows t ht r hr⟩
  refine ⟨filtered_aligned h hc.aligned, ?_, ?_, ?_⟩
  · intro t ht y hy
    obtain ⟨r, hr, _, _, _, hi, _⟩ := filtered_row h (List.mem_flatten.2 ⟨t, ht, hy⟩)
    rcases hi with hi | hi <;> rw [hi]
    · exact (hall r hr).1
    · exact ⟨le_refl _, zero_le_one⟩
  · intro t ht y hy
    obtain ⟨r, hr, _, hg, hp, _⟩ := filtered_row h (List.mem_flatten.2 ⟨t, ht, hy⟩)
    obtain ⟨o1, o2⟩ := (hall r hr).2
    constructor
    · intro h0
      rcases hp with ⟨e1, e2, _⟩ | ⟨e1, _⟩
      · rw [e2]; exact o1 (by omega)
      · omega
    · intro h0
      rcases hg with ⟨e1, e2⟩ | ⟨_, e2⟩
      · rw [e2]; exact o2 (by omega)
      · exact e2
  · intro x hx y hy h0 he
    obtain ⟨r, hr, dx, gx, _⟩ := filtered_row h hx
    obtain ⟨r', hr', dy, gy, _⟩ := filtered_row h hy
    rcases gx with ⟨e1, e2⟩ | ⟨e1, _⟩
    · rcases gy with ⟨e3, e4⟩ | ⟨e3, _⟩
      · have := hc.gts r hr r' hr' (by omega) (by omega)
        exact ⟨by omega, by omega⟩
      · omega
    · omega

theorem C33_pairsOk {d g p : Option Expr} {tables tables' : List (List FRow)} (h : Stored (filterTables d g p tables) tables')
    (hc : PairsOk (rowsIn tables).flatten) : PairsOk (rowsIn tables').flatten := by
  refine ⟨?_, ?_, ?_, ?_⟩
  · intro y hy
    obtain ⟨r, hr, hd, hg, hp, _⟩ := filtered_row h hy
    obtain ⟨i1, i2, i3⟩ := hc.ids r hr
    refine ⟨?_, ?_, by rw [hd]; exact i3⟩
    · rcases hg with ⟨e, _⟩ | ⟨e, _⟩
      · rw [e]; exact i1
      · exact Or.inl e
    · rcases hp with ⟨e, _⟩ | ⟨e, _⟩
      · rw [e]; exact i2
      · exact Or.inl e
  · intro x hx y hy h0 he
    obtain ⟨r, hr, dx, gx, _⟩ := filtered_row h hx
    obtain ⟨r', hr', dy, gy, _⟩ := filtered_row h hy
    rcases gx with ⟨e1, e2⟩ | ⟨e1, _⟩
    · rcases gy with ⟨e3, e4⟩ | ⟨e3, _⟩
      · have := hc.gts r hr r' hr' (by omega) (by omega)
        exact ⟨by omega, by omega⟩
      · omega
    · omega
  · intro x hx y hy h0 he
    obtain ⟨r, hr, dx, _, gx, _⟩ := filtered_row h hx
    obtain ⟨r', hr', dy, _, gy, _⟩ := filtered_row h hy
    rcases gx with ⟨e1, e2, e5⟩ | ⟨e1, _⟩
    · rcases gy with ⟨e3, e4, e6⟩ | ⟨e3, _⟩
      · have := hc.pds r hr r' hr' (by omega) (by omega)
        exact ⟨by omega, by omega, by rw [e5, e6]; exact this.2.2⟩
      · omega
    · omega
  · intro x hx y hy h0 h1 he1 he2
    obtain ⟨r, hr, dx, gx, px, _, ix⟩ := filtered_row h hx
    obtain ⟨r', hr', dy, gy, py, _, iy⟩ := filtered_row h hy
    rw [ix h0 h1, iy (by omega) (by omega)]
    rcases gx with ⟨e1, _⟩ | ⟨e1, _⟩
    · rcases gy with ⟨e3, _⟩ | ⟨e3, _⟩
      · rcases px with ⟨e5, _⟩ | ⟨e5, _⟩
        · rcases py with ⟨e7, _⟩ | ⟨e7, _⟩
          · exact hc.ious r hr r' hr' (by omega) (by omega) (by omega) (by omega)
          · omega
        · omega
      · omega
    · omega

theorem C33_labelsBelow {d g p : Option Expr} {tables tables' : List (List FRow)} (h : Stored (filterTables d g p tables) tables')
    {n : Nat} (hl : LabelsBelow n (rowsIn tables).flatten) : LabelsBelow n (rowsIn tables').flatten := by
  intro y hy
  obtain ⟨r, hr, _, hg, hp, _⟩ := filtered_row h hy
  obtain ⟨l1, l2⟩ := hl r hr
  constructor
  · intro h0
    rcases hg with ⟨e1, e2⟩ | ⟨e1, _⟩
    · rw [e2]; exact l1 (by omega)
    · omega
  · intro h0
    rcases hp with ⟨e1, e2, _⟩ | ⟨e1, _⟩
    · rw [e2]; exact l2 (by omega)
    · omega

/-- **C33 (counts).** The ground truth count of a label in the filtered evaluator is the number of its
ground truths that satisfy the conditions; with single labels, true plus false positives are the number of
its predictions that satisfy the conditions and the score threshold. -/
theorem C33_counts {d g p : Option Expr} {tables tables' : List (List FRow)} (h : Stored (filterTables d g p tables) tables')
    (hc : CacheOk (rowsIn tables)) (l : Int) :
    gtCount (rowsIn tables') l
      = ((tables.flatten.filter (fun r => decide (0 ≤ r.row.gt ∧ r.row.gl = l ∧ Holds d r ∧ Holds g r))).map (fun r => r.row.gt)).dedup.length ∧
    (PairsOk (rowsIn tables).flatten → ∀ {out : List RRow}, RankedOf (rowsIn tables') out → ∀ chunks, chunks.flatten = out → ∀ t s,
      tpTotal t s chunks l + fpTotal t s chunks l
        = ((tables.flatten.filter (fun r => decide (0 ≤ r.row.pd ∧ r.row.pl = l ∧ s ≤ r.row.score ∧ EPSILON < r.row.score ∧ Holds d r ∧ Holds p r))).map
          (fun r => r.row.pd)).dedup.length) := by
  constructor
  · rw [C28_groundtruths (C33_cacheOk h hc)]
    apply List.Perm.length_eq
    rw [List.perm_ext_iff_of_nodup (List.nodup_dedup _) (List.nodup_dedup _)]
    intro z
    rw [List.mem_dedup, List.mem_dedup]
    simp only [List.mem_map, List.mem_filter, decide_eq_true_eq]
    constructor
    · rintro ⟨y, ⟨hy, h0, hl⟩, rfl⟩
      rw [rowsIn_flatten] at hy
      obtain ⟨x, hx, rfl⟩ := List.mem_map.1 hy
      obtain ⟨tbl, htbl, hx⟩ := (mem_filtered h x).1 hx
      obtain ⟨r, hr, ⟨e1, e2, e3⟩, hd, hg⟩ := (C33_groundtruths d g p tbl _ _ _ h0).1 ⟨x, hx, rfl, rfl, rfl⟩
      exact ⟨r, ⟨List.mem_flatten.2 ⟨tbl, htbl, hr⟩, by omega, by omega, hd, hg⟩, e2⟩
    · rintro ⟨r, ⟨hr, h0, hl, hd, hg⟩, rfl⟩
      obtain ⟨tbl, htbl, hr⟩ := List.mem_flatten.1 hr
      obtain ⟨x, hx, e1, e2, e3⟩ := (C33_groundtruths d g p tbl _ _ _ h0).2 ⟨r, hr, ⟨rfl, rfl, rfl⟩, hd, hg⟩
      refine ⟨x.row, ⟨?_, by omega, by omega⟩, e2⟩
      rw [rowsIn_flatten]
      exact List.mem_map_of_mem ((mem_filtered h x).2 ⟨tbl, htbl, hx⟩)
  · intro hp out hout chunks hch t s
    rw [C28_tp_fp, hch, ranked_predictions (C33_cacheOk h hc) (C33_pairsOk h hp) hout]
    apply List.Perm.length_eq
    rw [List.perm_ext_iff_of_nodup (List.nodup_dedup _) (List.nodup_dedup _)]
    intro z
    rw [List.mem_dedup, List.mem_dedup]
    simp only [List.mem_map, List.mem_filter, decide_eq_true_eq]
    constructor
    · rintro ⟨y, ⟨hy, h0, hl, hs⟩, rfl⟩
      rw [rowsIn_flatten] at hy
      obtain ⟨x, hx, rfl⟩ := List.mem_map.1 hy
      obtain ⟨tbl, htbl, hx⟩ := (mem_filtered h x).1 hx
      obtain ⟨⟨r, hr, ⟨e1, e2, e3⟩, hd, hg⟩, r2, hr2, _, ⟨f1, f2, f3⟩, hs2⟩ := (C33_predictions d g p tbl _ _ _ h0 _).1 ⟨x, hx, ⟨rfl, rfl, rfl⟩, rfl⟩
      have hsc := (hp.pds _ (rowsIn_mem htbl hr) _ (rowsIn_mem htbl hr2) (by omega) (by omega)).2.2
      refine ⟨r, ⟨List.mem_flatten.2 ⟨tbl, htbl, hr⟩, by omega, by omega, ?_, ?_, hd, hg⟩, e2⟩
      · rw [hsc, hs2]; exact hs.1
      · rw [hsc, hs2]; exact hs.2
    · rintro ⟨r, ⟨hr, h0, hl, hs1, hs2, hd, hg⟩, rfl⟩
      obtain ⟨tbl, htbl, hr⟩ := List.mem_flatten.1 hr
      obtain ⟨x, hx, ⟨e1, e2, e3⟩, hs⟩ := (C33_predictions d g p tbl _ _ _ h0 r.row.score).2
        ⟨⟨r, hr, ⟨rfl, rfl, rfl⟩, hd, hg⟩, r, hr, hd, ⟨rfl, rfl, rfl⟩, rfl⟩
      refine ⟨x.row, ⟨?_, by omega, by omega, by rw [hs]; exact hs1, by rw [hs]; exact hs2⟩, e2⟩
      rw [rowsIn_flatten]
      exact List.mem_map_of_mem ((mem_filtered h x).2 ⟨tbl, htbl, hx⟩)

/-- **C33 (datum filter).** If the datum condition selects detections (by uid, metadata or anything else
that is constant on a detection), the filtered cache holds the rows of the selected detections; with C54,
its metrics are theirs. -/
theorem C33_datums {calls : List History} {tables tables' : List (List FRow)} (hs : Stored (Loader.init.addAll calls).rows tables)
    (d : Expr) (keep : Nat → Bool) (hd : ∀ k x f, calls.flatten[k]? = some x →
      IsRow (Loader.init.addAll calls).labels x.1 x.2 k (gtOffset calls.flatten k) (pdOffset calls.flatten k) f → d f = keep k)
    (h : Stored (filterTables (some d) none none tables) tables') : Holding calls keep (rowsIn tables') := by
  have hold := holding_of_stored hs
  obtain ⟨_, hlen, hrows⟩ := C34_rows calls
  have hF : ∀ f, f ∈ tables.flatten ↔ ∃ k x, calls.flatten[k]? = some x ∧
      IsRow (Loader.init.addAll calls).labels x.1 x.2 k (gtOffset calls.flatten k) (pdOffset calls.flatten k) f := by
    intro f
    rw [stored_mem_iff hs, List.mem_flatten]
    constructor
    · rintro ⟨p, hp, hf⟩
      obtain ⟨k, hk, rfl⟩ := List.getElem_of_mem hp
      have hkx : calls.flatten[k]? = some (calls.flatten[k]'(by omega)) := List.getElem?_eq_getElem (by omega)
      obtain ⟨payload, h1, h2⟩ := hrows k _ hkx
      rw [List.getElem?_eq_getElem hk] at h1
      have := Option.some.inj h1
      exact ⟨k, _, hkx, (h2 f).1 (this ▸ hf)⟩
    · rintro ⟨k, x, hkx, hf⟩
      obtain ⟨payload, h1, h2⟩ := hrows k x hkx
      exact ⟨payload, List.mem_of_getElem? h1, (h2 f).2 hf⟩
  refine ⟨filtered_aligned h hold.aligned, ?_⟩
  intro r
  rw [rowsIn_flatten, List.mem_map]
  constructor
  · rintro ⟨y, hy, rfl⟩
    obtain ⟨tbl, htbl, hy⟩ := (mem_filtered h y).1 hy
    rw [mem_filterTable] at hy
    obtain ⟨f, hf, hdf, vg, vp, hg, hp, _, rfl⟩ := hy
    have e1 : vg = true := hg.2 ⟨f, hf, ⟨rfl, rfl, rfl⟩, hdf, by simp [Holds]⟩
    have e2 : vp = true := hp.2 ⟨f, hf, ⟨rfl, rfl, rfl⟩, hdf, by simp [Holds]⟩
    subst e1; subst e2
    obtain ⟨k, x, hk, hrow⟩ := (hF f).1 (List.mem_flatten.2 ⟨tbl, htbl, hf⟩)
    refine ⟨k, x, f, ?_, hk, hrow, rfl⟩
    rw [← hd k x f hk hrow]
    exact hdf d rfl
  · rintro ⟨k, x, f, hkp, hk, hrow, rfl⟩
    obtain ⟨tbl, htbl, hf⟩ := List.mem_flatten.1 ((hF f).2 ⟨k, x, hk, hrow⟩)
    have hdf : Holds (some d) f := by
      intro e he
      cases he
      rw [hd k x f hk hrow, hkp]
    refine ⟨f, (mem_filtered h f).2 ⟨tbl, htbl, (mem_filterTable _ _ _ _ _).2 ⟨f, hf, hdf, true, true,
      ⟨fun _ => ⟨f, hf, ⟨rfl, rfl, rfl⟩, hdf, by simp [Holds]⟩, fun _ => rfl⟩,
      ⟨fun _ => ⟨f, hf, ⟨rfl, rfl, rfl⟩, hdf, by simp [Holds]⟩, fun _ => rfl⟩, ?_, rfl⟩⟩, rfl⟩
    obtain ⟨t1, t2⟩ := hrow.texts
    rcases hrow with ⟨_, _, _, _, rfl⟩ | ⟨_, _, _, _, _, _, _, rfl⟩ | ⟨_, _, _, _, _, _, _, _, _, _, _, _, rfl⟩
    · exact Or.inl ⟨rfl, by simp only [gtRow]; omega⟩
    · exact Or.inr ⟨rfl, by simp only [pdRow]; omega⟩
    · exact Or.inl ⟨rfl, by simp only [pairRow]; omega⟩

/-! ## C50 -/

/-- A label that a detection adds to the label table. -/
def StepLabel (d : Det) (iou : Nat → Nat → Rat) (v : String) : Prop :=
  ∃ (k : Int) (g0 p0 : Nat), ∃ s ∈ detSteps d iou k g0 p0, v ∈ s.labels

/-- Detections as the API accepts them: at least one label per annotation, a score for each label of a
prediction. -/
structure DetOk (d : Det) : Prop where
  gts : ∀ a ∈ d.gts, a.labels ≠ []
  pds : ∀ a ∈ d.pds, a.labels ≠ [] ∧ a.scores.length = a.labels.length

theorem DetOk.valid {d : Det} (h : DetOk d) : d.valid = true := by
  unfold Det.valid
  rw [List.all_eq_true]
  intro p hp
  simpa using (h.pds p hp).2

/-- **C34 (what can be constructed).** The constructors accept exactly these detections: a ground truth has one label
and no score, or as many labels as scores; a prediction has as many labels as scores, at least one. -/
theorem C34_constructor (d : Det) : ((∀ a ∈ d.gts ++ d.pds, a.valid = true) ∧ d.valid = true) ↔
    (∀ a ∈ d.gts, (a.scores = [] ∧ ∃ v, a.labels = [v]) ∨ (a.scores ≠ [] ∧ a.labels.length = a.scores.length)) ∧
    (∀ a ∈ d.pds, a.scores ≠ [] ∧ a.labels.length = a.scores.length) := by
  have hv : ∀ a : Ann, a.valid = true ↔ (a.scores = [] ∧ ∃ v, a.labels = [v]) ∨ (a.scores ≠ [] ∧ a.labels.length = a.scores.length) := by
    intro a
    unfold Ann.valid
    rcases e : a.scores with _ | ⟨x, xs⟩
    · simp [List.length_eq_one_iff]
    · simp
  have hd : d.valid = true ↔ ∀ a ∈ d.pds, a.scores.length = a.labels.length := by
    unfold Det.valid
    rw [List.all_eq_true]
    simp
  rw [hd]
  constructor
  · rintro ⟨h1, h2⟩
    refine ⟨fun a ha => (hv a).1 (h1 a (List.mem_append_left _ ha)), fun a ha => ?_⟩
    rcases (hv a).1 (h1 a (List.mem_append_right _ ha)) with ⟨e, v, e'⟩ | h
    · have := h2 a ha
      rw [e, e'] at this
      simp at this
    · exact h
  · rintro ⟨h1, h2⟩
    refine ⟨fun a ha => (hv a).2 ?_, fun a ha => (h2 a ha).2.symm⟩
    rcases List.mem_append.1 ha with h | h
    · exact h1 a h
    · exact Or.inr (h2 a h)

/-- **C34 (constructed detections).** Of every detection that the constructors accept, every ground truth and every
label of every prediction is stored. -/
theorem C34_constructed (d : Det) (ha : ∀ a ∈ d.gts ++ d.pds, a.valid = true) (hd : d.valid = true)
    (L : List String) (iou : Nat → Nat → Rat) (k g0 p0 : Nat) :
    DetOk d ∧
    (∀ (g : Nat) a, d.gts[g]? = some a → ∃ v, a.labels.head? = some v ∧ ∃ r, IsRow L d iou k g0 p0 r ∧ r.row.gt = ((g0 + g : Nat) : Int) ∧
      r.gtUid = some a.uid ∧ r.gtLabel = some v) ∧
    (∀ (p : Nat) a, d.pds[p]? = some a → ∀ (i : Nat) v, a.labels[i]? = some v → ∃ s, a.scores[i]? = some s ∧ ∃ r, IsRow L d iou k g0 p0 r ∧
      r.row.pd = ((p0 + p : Nat) : Int) ∧ r.pdUid = some a.uid ∧ r.pdLabel = some v ∧ r.row.score = s) := by
  obtain ⟨h1, h2⟩ := (C34_constructor d).1 ⟨ha, hd⟩
  have hok : DetOk d := by
    refine ⟨fun a h => ?_, fun a h => ⟨?_, (h2 a h).2.symm⟩⟩
    · rcases h1 a h with ⟨_, v, e⟩ | ⟨e, e'⟩
      · rw [e]; simp
      · intro h0
        rw [h0] at e'
        exact e (List.length_eq_zero_iff.1 e'.symm)
    · intro h0
      have := (h2 a h).2
      rw [h0] at this
      exact (h2 a h).1 (List.length_eq_zero_iff.1 this.symm)
  refine ⟨hok, fun g a hg => ?_, fun p a hp i v hi => ?_⟩
  · have hne := hok.gts a (List.mem_of_getElem? hg)
    obtain ⟨v, vs, e⟩ := List.exists_cons_of_ne_nil hne
    obtain ⟨r, hr, _, e1, _, e2, e3⟩ := C34_groundtruths L d iou k g0 p0 hd (fun a ha => (hok.pds a ha).1) hg hne
    refine ⟨v, by rw [e]; rfl, r, hr, e1, e2, ?_⟩
    rw [e3, e]; rfl
  · have hlen := (h2 a (List.mem_of_getElem? hp)).2
    obtain ⟨hlt, e⟩ := List.getElem?_eq_some_iff.1 hi
    have hlt' : i < a.scores.length := hlen ▸ hlt
    refine ⟨a.scores[i], List.getElem?_eq_getElem hlt', ?_⟩
    have hz : (v, a.scores[i]) ∈ a.labels.zip a.scores := by
      rw [← e, List.mem_iff_getElem]
      exact ⟨i, by rw [List.length_zip]; omega, by simp⟩
    obtain ⟨r, hr, _, e1, _, e2, e3, e4⟩ := C34_predictions L d iou k g0 p0 hok.gts hp hz
    exact ⟨r, hr, e1, e3, e4, e2⟩

/-- A detection with a ground truth that has scores and with a prediction that has two labels is accepted. -/
example : let d : Det := ⟨"d", [⟨"g", ["cat", "dog"], [1, 1], ""⟩, ⟨"h", ["cat"], [], ""⟩], [⟨"p", ["cat", "dog"], [1 / 2, 1 / 3], ""⟩], ""⟩
    (∀ a ∈ d.gts ++ d.pds, a.valid = true) ∧ d.valid = true := by decide

/-- A label that is added occurs in a row. -/
theorem step_label_row {d : Det} {iou : Nat → Nat → Rat} {v : String} (h : StepLabel d iou v) (hd : DetOk d) (L : List String) (k g0 p0 : Nat) :
    ∃ r, IsRow L d iou k g0 p0 r ∧ (r.gtLabel = some v ∨ r.pdLabel = some v) := by
  have hpred : ∀ {p : Nat} {a : Ann} {z : String × Rat}, d.pds[p]? = some a → z ∈ a.labels.zip a.scores →
      ∃ r, IsRow L d iou k g0 p0 r ∧ (r.gtLabel = some z.1 ∨ r.pdLabel = some z.1) := by
    intro p a z hp hz
    obtain ⟨r, hr, _, _, _, _, _, ht⟩ := C34_predictions L d iou k g0 p0 hd.gts hp (label := z.1) (score := z.2) hz
    exact ⟨r, hr, Or.inr ht⟩
  obtain ⟨k', g0', p0', s, hs, hv⟩ := h
  unfold detSteps at hs
  split at hs
  · rw [List.mem_flatMap] at hs
    obtain ⟨⟨ga, g⟩, hg, hs⟩ := hs
    rw [mem_zipIdx'] at hg
    unfold gtSteps at hs
    rcases List.mem_cons.1 hs with rfl | hs
    · simp only [Step.labels, Option.toList_some, Option.toList_none, List.append_nil, List.mem_singleton] at hv
      subst hv
      obtain ⟨r, hr, _, _, _, _, ht⟩ := C34_groundtruths L d iou k g0 p0 hd.valid (fun a ha => (hd.pds a ha).1) hg
        (hd.gts ga (List.mem_of_getElem? hg))
      exact ⟨r, hr, Or.inl ht⟩
    · rw [List.mem_flatMap] at hs
      obtain ⟨⟨pa, p⟩, hp, hs⟩ := hs
      rw [mem_zipIdx'] at hp
      rcases List.mem_append.1 hs with hs | hs
      · split at hs
        · obtain ⟨z, hz, rfl⟩ := List.mem_map.1 hs
          simp only [Step.labels, Option.toList_some, Option.toList_none, List.nil_append, List.mem_singleton] at hv
          subst hv
          exact hpred hp hz
        · simp at hs
      · split at hs
        · rename_i heps
          rw [List.mem_flatMap] at hs
          obtain ⟨gl, hgl, hs⟩ := hs
          obtain ⟨z, hz, rfl⟩ := List.mem_map.1 hs
          refine ⟨_, Or.inr (Or.inr ⟨g, ga, p, pa, gl, z.1, z.2, hg, hp, heps, hgl, hz, rfl⟩), ?_⟩
          simp only [Step.labels, Option.toList_some, List.cons_append, List.nil_append, List.mem_cons, List.not_mem_nil, or_false] at hv
          rcases hv with rfl | rfl
          · exact Or.inl rfl
          · exact Or.inr rfl
        · simp at hs
  · rw [List.mem_flatMap] at hs
    obtain ⟨⟨pa, p⟩, hp, hs⟩ := hs
    rw [mem_zipIdx'] at hp
    obtain ⟨z, hz, rfl⟩ := List.mem_map.1 hs
    simp only [Step.labels, Option.toList_some, Option.toList_none, List.nil_append, List.mem_singleton] at hv
    subst hv
    exact hpred hp hz

/-- Every label of the table was added by a detection. -/
theorem labels_used (calls : List History) : ∀ v ∈ (Loader.init.addAll calls).labels, ∃ x ∈ calls.flatten, StepLabel x.1 x.2 v := by
  have hone : ∀ (s : Loader) x, s.labels.Nodup → (s.addOne x).labels.Nodup ∧ ∀ v ∈ (s.addOne x).labels, v ∈ s.labels ∨ StepLabel x.1 x.2 v := by
    intro s x hnd
    obtain ⟨c1, _, _, c4, _⟩ := exec_spec (detSteps x.1 x.2 s.datums s.gts s.pds) s.labels hnd
    refine ⟨c1, ?_⟩
    intro v hv
    rcases c4 v hv with h | ⟨st, hst, hv⟩
    · exact Or.inl h
    · exact Or.inr ⟨_, _, _, st, hst, hv⟩
  have hdata : ∀ (l : History) (s : Loader), s.labels.Nodup → (s.addData l).labels.Nodup ∧
      ∀ v ∈ (s.addData l).labels, v ∈ s.labels ∨ ∃ x ∈ l, StepLabel x.1 x.2 v := by
    unfold Loader.addData
    intro l
    induction l with
    | nil => intro s h; exact ⟨h, fun v hv => Or.inl hv⟩
    | cons x l ih =>
      intro s h
      obtain ⟨h1, h2⟩ := hone s x h
      obtain ⟨h3, h4⟩ := ih _ h1
      refine ⟨h3, ?_⟩
      intro v hv
      rcases h4 v hv with h | ⟨y, hy, h⟩
      · rcases h2 v h with h | h
        · exact Or.inl h
        · exact Or.inr ⟨x, by simp, h⟩
      · exact Or.inr ⟨y, by simp [hy], h⟩
  have hall : ∀ (s : Loader), s.labels.Nodup → ∀ v ∈ (s.addAll calls).labels, v ∈ s.labels ∨ ∃ x ∈ calls.flatten, StepLabel x.1 x.2 v := by
    unfold Loader.addAll
    induction calls with
    | nil => intro s _ v hv; exact Or.inl hv
    | cons c cs ih =>
      intro s h v hv
      obtain ⟨h1, h2⟩ := hdata c s h
      rcases ih _ h1 v hv with h | ⟨y, hy, h⟩
      · rcases h2 v h with h | ⟨y, hy, h⟩
        · exact Or.inl h
        · exact Or.inr ⟨y, by simp [hy], h⟩
      · exact Or.inr ⟨y, by rw [List.flatten_cons, List.mem_append]; exact Or.inr hy, h⟩
  intro v hv
  rcases hall Loader.init (by simp [Loader.init]) v hv with h | h
  · simp [Loader.init] at h
  · exact h

/-- Rows of the cache as rows of detections. -/
theorem mem_stored {calls : List History} {tables : List (List FRow)} (h : Stored (Loader.init.addAll calls).rows tables) (f : FRow) :
    f ∈ tables.flatten ↔ ∃ k x, calls.flatten[k]? = some x ∧
      IsRow (Loader.init.addAll calls).labels x.1 x.2 k (gtOffset calls.flatten k) (pdOffset calls.flatten k) f := by
  obtain ⟨_, hlen, hrows⟩ := C34_rows calls
  rw [stored_mem_iff h, List.mem_flatten]
  constructor
  · rintro ⟨p, hp, hf⟩
    obtain ⟨k, hk, rfl⟩ := List.getElem_of_mem hp
    have hkx : calls.flatten[k]? = some (calls.flatten[k]'(by omega)) := List.getElem?_eq_getElem (by omega)
    obtain ⟨payload, h1, h2⟩ := hrows k _ hkx
    rw [List.getElem?_eq_getElem hk] at h1
    have := Option.some.inj h1
    exact ⟨k, _, hkx, (h2 f).1 (this ▸ hf)⟩
  · rintro ⟨k, x, hkx, hf⟩
    obtain ⟨payload, h1, h2⟩ := hrows k x hkx
    exact ⟨payload, List.mem_of_getElem? h1, (h2 f).2 hf⟩

/-- **C50 (detection).** For every history and every division and order of the rows, the extracted
dictionary maps exactly the loader's ids to the loader's labels. -/
theorem C50_detection (calls : List History) (hv : ∀ x ∈ calls.flatten, DetOk x.1) {tables : List (List FRow)}
    (h : Stored (Loader.init.addAll calls).rows tables) :
    let d := extractLabels (tables.map (fun t => t.map labelCols))
    (d.map Prod.fst).Nodup ∧
    ∀ (i : Int) (s : String), d.lookup i = some s ↔ 0 ≤ i ∧ (Loader.init.addAll calls).labels[i.toNat]? = some s := by
  intro d
  have hflat : (tables.map (fun t => t.map labelCols)).flatten = tables.flatten.map labelCols := by
    rw [List.map_flatten]
  have hlab : ∀ v ∈ (Loader.init.addAll calls).labels, (Loader.init.addAll calls).labels[(Loader.init.addAll calls).labels.idxOf v]? = some v := by
    intro v hv
    rw [List.getElem?_eq_getElem (List.idxOf_lt_length_of_mem hv)]
    simp
  have hnd := (C34_rows calls).1
  obtain ⟨h1, h2⟩ := C50_extract (f := fun i => ((Loader.init.addAll calls).labels[i.toNat]?).getD "") (tables.map (fun t => t.map labelCols)) (by
    rw [hflat]
    intro r hr
    obtain ⟨f, hf, rfl⟩ := List.mem_map.1 hr
    obtain ⟨k, x, hk, hrow⟩ := (mem_stored h f).1 hf
    obtain ⟨t1, t2⟩ := hrow.texts
    obtain ⟨l1, l2⟩ := isRow_labels calls hk hrow
    simp only [labelCols]
    constructor
    · intro hne
      rcases t1 with ⟨_, e, _⟩ | ⟨v, e1, e2, _⟩
      · exact absurd e hne
      · rw [e1, e2, Int.toNat_natCast, hlab v (l1 v e1)]
    · intro hne
      rcases t2 with ⟨_, e, _⟩ | ⟨v, e1, e2, _⟩
      · exact absurd e hne
      · rw [e1, e2, Int.toNat_natCast, hlab v (l2 v e1)])
  refine ⟨h1, ?_⟩
  intro i s
  rw [h2, hflat]
  constructor
  · rintro ⟨⟨hne, r, hr, he⟩, rfl⟩
    obtain ⟨f, hf, rfl⟩ := List.mem_map.1 hr
    obtain ⟨k, x, hk, hrow⟩ := (mem_stored h f).1 hf
    obtain ⟨t1, t2⟩ := hrow.texts
    obtain ⟨l1, l2⟩ := isRow_labels calls hk hrow
    simp only [labelCols] at he
    rcases he with rfl | rfl
    · rcases t1 with ⟨_, e, _⟩ | ⟨v, e1, e2, _⟩
      · exact absurd e hne
      · rw [e2, Int.toNat_natCast, hlab v (l1 v e1)]
        exact ⟨Int.natCast_nonneg _, rfl⟩
    · rcases t2 with ⟨_, e, _⟩ | ⟨v, e1, e2, _⟩
      · exact absurd e hne
      · rw [e2, Int.toNat_natCast, hlab v (l2 v e1)]
        exact ⟨Int.natCast_nonneg _, rfl⟩
  · rintro ⟨h0, hs⟩
    obtain ⟨hi, rfl⟩ := List.getElem?_eq_some_iff.1 hs
    have hmem := List.getElem_mem hi
    have hidx : (Loader.init.addAll calls).labels.idxOf (Loader.init.addAll calls).labels[i.toNat] = i.toNat :=
      hnd.idxOf_getElem _ hi
    obtain ⟨x, hx, hsl⟩ := labels_used calls _ hmem
    obtain ⟨k, hk, rfl⟩ := List.getElem_of_mem hx
    have hk' : calls.flatten[k]? = some calls.flatten[k] := List.getElem?_eq_getElem hk
    obtain ⟨r, hr, hlr⟩ := step_label_row hsl (hv _ hx) (Loader.init.addAll calls).labels k (gtOffset calls.flatten k) (pdOffset calls.flatten k)
    refine ⟨⟨by omega, labelCols r, List.mem_map_of_mem ((mem_stored h r).2 ⟨k, _, hk', hr⟩), ?_⟩, by rw [hs]; rfl⟩
    obtain ⟨t1, t2⟩ := hr.texts
    simp only [labelCols]
    rcases hlr with e | e
    · left
      rcases t1 with ⟨e', _⟩ | ⟨v, e1, e2, _⟩
      · rw [e'] at e; cases e
      · rw [e1] at e
        cases e
        rw [e2, hidx]
        exact Int.toNat_of_nonneg h0
    · right
      rcases t2 with ⟨e', _⟩ | ⟨v, e1, e2, _⟩
      · rw [e'] at e; cases e
      · rw [e1] at e
        cases e
        rw [e2, hidx]
        exact Int.toNat_of_nonneg h0

/-! ## C55 -/

/-- Distinct values over tables of different datums. -/
theorem distinct_sum_rows {tables : List (List FRow)} (ha : Aligned (rowsIn tables)) (f : FRow → Int) (q : FRow → Bool)
    (hf : ∀ x ∈ tables.flatten, ∀ y ∈ tables.flatten, q x = true → q y = true → f x = f y → x.row.datum = y.row.datum) :
    (tables.map (fun t => ((t.filter q).map f).dedup.length)).sum = ((tables.flatten.filter q).map f).dedup.length := by
  induction tables with
  | nil => rfl
  | cons t ts ih =>
    unfold Aligned at ha
    rw [rowsIn, List.map_cons, List.pairwise_cons] at ha
    rw [List.map_cons, List.sum_cons, ih ha.2 (fun x hx y hy => hf x (by rw [List.flatten_cons, List.mem_append]; exact Or.inr hx) y
      (by rw [List.flatten_cons, List.mem_append]; exact Or.inr hy)), List.flatten_cons, List.filter_append, List.map_append,
      dedup_append_disjoint]
    · intro z hz hz'
      obtain ⟨x, hx, rfl⟩ := List.mem_map.1 hz
      obtain ⟨y, hy, he⟩ := List.mem_map.1 hz'
      rw [List.mem_filter] at hx hy
      obtain ⟨t', ht', hyt⟩ := List.mem_flatten.1 hy.1
      refine ha.1 (t'.map FRow.row) (List.mem_map_of_mem ht') x.row (List.mem_map_of_mem hx.1) y.row (List.mem_map_of_mem hyt) ?_
      exact hf x (by rw [List.flatten_cons, List.mem_append]; exact Or.inl hx.1) y
        (by rw [List.flatten_cons, List.mem_append]; exact Or.inr hy.1) hx.2 hy.2 he.symm

theorem readTable_eq (d : Option Expr) (t : List FRow) : readTable d t = t.filter (fun r => decide (Holds d r)) := by
  cases d with
  | none =>
    unfold readTable Holds
    simp
  | some e =>
    unfold readTable Holds
    apply List.filter_congr
    intro x _
    simp

/-- **C55 (any conditions).** The numbers of `get_info` are the distinct datums, ground truths and
predictions of the rows that satisfy the conditions, for any division into tables that is aligned with
datums. -/
theorem C55_counts (d g p : Option Expr) {tables : List (List FRow)} (ha : Aligned (rowsIn tables))
    (hg : ∀ x ∈ tables.flatten, ∀ y ∈ tables.flatten, 0 ≤ x.row.gt → x.row.gt = y.row.gt → x.row.datum = y.row.datum)
    (hp : ∀ x ∈ tables.flatten, ∀ y ∈ tables.flatten, 0 ≤ x.row.pd → x.row.pd = y.row.pd → x.row.datum = y.row.datum) :
    extractCounts d g p tables =
      (((tables.flatten.filter (fun r => decide (Holds d r))).map (fun r => r.row.datum)).dedup.length,
       ((tables.flatten.filter (fun r => decide (Holds d r ∧ Holds g r ∧ 0 ≤ r.row.gt))).map (fun r => r.row.gt)).dedup.length,
       ((tables.flatten.filter (fun r => decide (Holds d r ∧ Holds p r ∧ 0 ≤ r.row.pd))).map (fun r => r.row.pd)).dedup.length) := by
  unfold extractCounts unique
  dsimp only
  rw [List.map_map, List.map_map, List.map_map]
  have e1 : ∀ (e : Option Expr) (f : FRow → Int) (t : List FRow),
      ((filterOpt e (readTable d t)).map f).filter (fun i => decide (i ≥ 0))
        = (t.filter (fun r => decide (Holds d r ∧ Holds e r ∧ 0 ≤ f r))).map f := by
    intro e f t
    unfold filterOpt
    rw [readTable_eq, readTable_eq, List.filter_filter, List.filter_map, List.filter_filter]
    congr 1
    apply List.filter_congr
    intro x _
    rw [Bool.eq_iff_iff]
    simp only [Function.comp_apply, Bool.and_eq_true, decide_eq_true_eq, ge_iff_le]
    tauto
  refine Prod.ext ?_ (Prod.ext ?_ ?_)
  · dsimp only
    rw [← distinct_sum_rows ha (fun r => r.row.datum) (fun r => decide (Holds d r)) (fun x _ y _ _ _ h => h)]
    congr 1
    apply List.map_congr_left
    intro t _
    simp only [Function.comp_apply, readTable_eq]
  · dsimp only
    rw [← distinct_sum_rows ha (fun r => r.row.gt) (fun r => decide (Holds d r ∧ Holds g r ∧ 0 ≤ r.row.gt))]
    · congr 1
      apply List.map_congr_left
      intro t _
      simp only [Function.comp_apply, e1]
    · intro x hx y hy h1 h2 he
      rw [decide_eq_true_eq] at h1
      exact hg x hx y hy h1.2.2 he
  · dsimp only
    rw [← distinct_sum_rows ha (fun r => r.row.pd) (fun r => decide (Holds d r ∧ Holds p r ∧ 0 ≤ r.row.pd))]
    · congr 1
      apply List.map_congr_left
      intro t _
      simp only [Function.comp_apply, e1]
    · intro x hx y hy h1 h2 he
      rw [decide_eq_true_eq] at h1
      exact hp x hx y hy h1.2.2 he

end Verif.Detection
