import Verif.Detection.CmExLemmas

/-! # C59: confusion matrix with examples -/

namespace Verif.Detection

open Verif.Classification (unique)
open Verif.Cache (sortedUnique keyIndex sortedUnique_strict mem_sortedUnique)

/-! ## Counts -/

theorem uniqueRows_perm (l : List (List Int)) : (uniqueRows l).Perm (unique l) := by
  unfold uniqueRows unique
  exact List.perm_insertionSort _ _

theorem labelText_iff {L : List String} (hn : L.Nodup) {l : String} (hl : l ∈ L) {i : Nat} (hi : i < L.length) :
    labelText L (i : Int) = l ↔ (i : Int) = ((L.idxOf l : Nat) : Int) := by
  unfold labelText
  rw [Int.toNat_natCast, List.getD_eq_getElem?_getD, List.getElem?_eq_getElem hi, Option.getD_some]
  constructor
  · rintro rfl
    rw [hn.idxOf_getElem]
  · intro h
    have h : i = L.idxOf l := by omega
    subst h
    exact List.getElem_idxOf hi

theorem withLabel_length {β α : Type} [DecidableEq β] (l : β) (A : List (β × α)) :
    (withLabel l A).length = (A.filter (fun x => decide (x.1 = l))).length := by
  unfold withLabel
  rw [List.length_map]

variable {L : List String} {tbl : List FRow}

theorem glText (h : TableOk L tbl) (hn : L.Nodup) {r : Row} (hr : r ∈ tbl.map FRow.row) (h0 : 0 ≤ r.gt) {l : String} (hl : l ∈ L) :
    labelText L r.gl = l ↔ r.gl = ((L.idxOf l : Nat) : Int) := by
  obtain ⟨f, hf, rfl⟩ := List.mem_map.1 hr
  rcases h.gl f hf with ⟨_, i, hi, hlt⟩ | ⟨hn, _⟩
  · rw [hi]
    exact labelText_iff hn hl hlt
  · omega

theorem plText (h : TableOk L tbl) (hn : L.Nodup) {r : Row} (hr : r ∈ tbl.map FRow.row) (h0 : 0 ≤ r.pd) {l : String} (hl : l ∈ L) :
    labelText L r.pl = l ↔ r.pl = ((L.idxOf l : Nat) : Int) := by
  obtain ⟨f, hf, rfl⟩ := List.mem_map.1 hr
  rcases h.pl f hf with ⟨_, i, hi, hlt⟩ | ⟨hn, _⟩
  · rw [hi]
    exact labelText_iff hn hl hlt
  · omega

theorem match_count (h : TableOk L tbl) (hn : L.Nodup) (t s : Rat) {g p : String} (hg : g ∈ L) (hp : p ∈ L) :
    (withLabel (g, p) ((matchRows tbl t s).map (matchTexts L tbl))).length
      = cmCell (tbl.map FRow.row) t s (L.idxOf g : Nat) (L.idxOf p : Nat) := by
  rw [withLabel_length, List.filter_map, List.length_map]
  unfold cmCell
  rw [← ((uniqueRows_perm _).filter _).length_eq]
  show ((matchRows tbl t s).filter _).length = ((matchRows tbl t s).filter _).length
  congr 1
  apply List.filter_congr
  intro key hkey
  unfold matchRows at hkey
  rw [mem_uniqueRows, List.mem_map] at hkey
  obtain ⟨r, hr, rfl⟩ := hkey
  rw [List.mem_filter] at hr
  obtain ⟨_, h0, h0'⟩ := matched_pos h hr.1 hr.2
  have e1 := glText h hn hr.1 h0 hg
  have e2 := plText h hn hr.1 h0' hp
  unfold matchTexts
  simp only [Function.comp_apply, List.getD_cons_succ, List.getD_cons_zero, Prod.mk.injEq, e1, e2, List.getElem?_cons_succ,
    List.getElem?_cons_zero, Option.some.injEq, Bool.decide_and]

theorem ugt_count (h : TableOk L tbl) (hn : L.Nodup) (t s : Rat) {l : String} (hl : l ∈ L) :
    (withLabel l ((ugtRows tbl t s).map (ugtTexts L tbl))).length = unmatchedGt (tbl.map FRow.row) t s (L.idxOf l : Nat) := by
  rw [withLabel_length, List.filter_map, List.length_map]
  unfold unmatchedGt
  rw [← ((uniqueRows_perm _).filter _).length_eq]
  show ((ugtRows tbl t s).filter _).length = ((ugtRows tbl t s).filter _).length
  congr 1
  apply List.filter_congr
  intro key hkey
  unfold ugtRows at hkey
  rw [mem_uniqueRows, List.mem_map] at hkey
  obtain ⟨r, hr, rfl⟩ := hkey
  rw [List.mem_filter] at hr
  have e1 := glText h hn hr.1 ((pairFn_spec h.owned t s hr.1).1 hr.2).2 hl
  unfold ugtTexts
  simp only [Function.comp_apply, List.getD_cons_succ, List.getD_cons_zero, e1, List.getElem?_cons_succ, List.getElem?_cons_zero,
    Option.some.injEq]

theorem upd_count (h : TableOk L tbl) (hn : L.Nodup) (t s : Rat) {l : String} (hl : l ∈ L) :
    (withLabel l ((updRows tbl t s).map (updTexts L tbl))).length = unmatchedPd (tbl.map FRow.row) t s (L.idxOf l : Nat) := by
  rw [withLabel_length, List.filter_map, List.length_map]
  unfold unmatchedPd
  rw [← ((uniqueRows_perm _).filter _).length_eq]
  show ((updRows tbl t s).filter _).length = ((updRows tbl t s).filter _).length
  congr 1
  apply List.filter_congr
  intro key hkey
  unfold updRows at hkey
  rw [mem_uniqueRows, List.mem_map] at hkey
  obtain ⟨r, hr, rfl⟩ := hkey
  rw [List.mem_filter] at hr
  have e1 := plText h hn hr.1 ((pairFp_spec h.owned t s hr.1).1 hr.2).1.2 hl
  unfold updTexts
  simp only [Function.comp_apply, List.getD_cons_succ, List.getD_cons_zero, e1, List.getElem?_cons_succ, List.getElem?_cons_zero,
    Option.some.injEq]

theorem withLabel_flatMap {β α γ : Type} [DecidableEq β] (l : β) (ts : List γ) (f : γ → List (β × α)) :
    withLabel l (ts.flatMap f) = ts.flatMap (fun T => withLabel l (f T)) := by
  induction ts with
  | nil => rfl
  | cons T ts ih => rw [List.flatMap_cons, List.flatMap_cons, withLabel_append, ih]

theorem read_mem {calls : List History} {tables : List (List FRow)} (h : StoredSorted (Loader.init.addAll calls).rows tables)
    (datums : Option Expr) {T : List FRow} (hT : T ∈ tables) : ∀ f ∈ readTable datums T, f ∈ (Loader.init.addAll calls).rows.flatten := by
  intro f hf
  refine (stored_mem_iff h.stored f).1 (List.mem_flatten.2 ⟨T, hT, ?_⟩)
  unfold readTable at hf
  cases datums with
  | none => exact hf
  | some e => exact (List.mem_filter.1 hf).1

/-- **C59 (counts).** For all detections added in any calls (any number of labels per prediction), every storage of the
cache, every filter expression and all thresholds: the call succeeds with one matrix for each pair of thresholds, every count
is the number of its examples, and it is the count of the confusion matrix without examples. -/
theorem C59_matrix_counts {calls : List History} (hH : HistoryOk calls.flatten) (hS : SizesOk (Loader.init.addAll calls))
    {tables : List (List FRow)} (h : StoredSorted (Loader.init.addAll calls).rows tables) (datums : Option Expr)
    (ious scores : List Rat) (hi : ious ≠ []) (hs : scores ≠ []) :
    ∃ ms, evalCmExamples tables datums (Loader.init.addAll calls).labels ious scores = some ms ∧
      ms.map Prod.fst = ious.flatMap (fun t => scores.map (fun s => (t, s))) ∧
      ∀ y ∈ ms, ∀ g ∈ (Loader.init.addAll calls).labels, ∀ p ∈ (Loader.init.addAll calls).labels,
        let read := rowsIn (tables.map (readTable datums))
        let id := fun l : String => (((Loader.init.addAll calls).labels.idxOf l : Nat) : Int)
        ((y.2.cm g p).count = (y.2.cm g p).examples.length ∧ (y.2.cm g p).count = cmTotal read y.1.1 y.1.2 (id g) (id p)) ∧
        ((y.2.ugt g).count = (y.2.ugt g).examples.length ∧ (y.2.ugt g).count = unmatchedGtTotal read y.1.1 y.1.2 (id g)) ∧
        ((y.2.upd p).count = (y.2.upd p).examples.length ∧ (y.2.upd p).count = unmatchedPdTotal read y.1.1 y.1.2 (id p)) := by
  have hok : ∀ T ∈ tables, TableOk (Loader.init.addAll calls).labels (readTable datums T) :=
    fun T hT => table_ok hH hS (read_mem h datums hT)
  have hnd := (C34_rows calls).1
  refine ⟨_, evalCm_lists datums _ hok ious scores hi hs, ?_, ?_⟩
  · rw [List.map_map]
    exact List.map_id _
  · intro y hy g hg p hp read id
    obtain ⟨⟨t, s⟩, _, rfl⟩ := List.mem_map.1 hy
    have hread : read = (tables.map (readTable datums)).map (fun T => T.map FRow.row) := rfl
    have hT : ∀ T ∈ tables.map (readTable datums), TableOk (Loader.init.addAll calls).labels T := by
      intro T hT
      obtain ⟨T', hT', rfl⟩ := List.mem_map.1 hT
      exact hok T' hT'
    clear hy
    dsimp only
    generalize tables.map (readTable datums) = ts at hread hT
    unfold CmExamples.addLists CmExamples.empty Cell.addAll
    dsimp only
    simp only [Nat.zero_add, List.nil_append, true_and]
    refine ⟨?_, ?_, ?_⟩
    · unfold cmTotal
      rw [withLabel_flatMap, List.length_flatMap, hread, List.map_map]
      congr 1
      apply List.map_congr_left
      intro T hTm
      exact match_count (hT T hTm) hnd t s hg hp
    · unfold unmatchedGtTotal
      rw [withLabel_flatMap, List.length_flatMap, hread, List.map_map]
      congr 1
      apply List.map_congr_left
      intro T hTm
      exact ugt_count (hT T hTm) hnd t s hg
    · unfold unmatchedPdTotal
      rw [withLabel_flatMap, List.length_flatMap, hread, List.map_map]
      congr 1
      apply List.map_congr_left
      intro T hTm
      exact upd_count (hT T hTm) hnd t s hp

/-! ## Datum by datum -/

theorem split_rows (M : List Row → Row → Bool) (c : Row → List Int) (hc : ∀ r, ∃ tl, c r = r.datum :: tl) (tbl : List FRow)
    (hM : ∀ d, ∀ r ∈ tbl.map FRow.row, r.datum = d → M (tbl.map FRow.row) r = M ((tbl.filter (fun f => decide (f.row.datum = d))).map FRow.row) r) :
    uniqueRows (((tbl.map FRow.row).filter (M (tbl.map FRow.row))).map c)
      = (sortedUnique (tbl.map (fun f => f.row.datum))).flatMap (fun d => uniqueRows
        ((((tbl.filter (fun f => decide (f.row.datum = d))).map FRow.row).filter
          (M ((tbl.filter (fun f => decide (f.row.datum = d))).map FRow.row))).map c)) := by
  have hin : ∀ d r, r ∈ (tbl.filter (fun f => decide (f.row.datum = d))).map FRow.row ↔ r ∈ tbl.map FRow.row ∧ r.datum = d := by
    intro d r
    simp only [List.mem_map, List.mem_filter, decide_eq_true_eq]
    constructor
    · rintro ⟨f, ⟨hf, hd⟩, rfl⟩
      exact ⟨⟨f, hf, rfl⟩, hd⟩
    · rintro ⟨⟨f, hf, rfl⟩, hd⟩
      exact ⟨f, ⟨hf, hd⟩, rfl⟩
  apply uniqueRows_eq
  · rw [List.pairwise_flatMap]
    refine ⟨fun d _ => uniqueRows_strict _, ?_⟩
    refine (sortedUnique_strict _).imp ?_
    intro a b hab u hu v hv
    rw [mem_uniqueRows, List.mem_map] at hu hv
    obtain ⟨x, hx, rfl⟩ := hu
    obtain ⟨y, hy, rfl⟩ := hv
    have hxd := ((hin a x).1 (List.mem_filter.1 hx).1).2
    have hyd := ((hin b y).1 (List.mem_filter.1 hy).1).2
    obtain ⟨tx, ex⟩ := hc x
    obtain ⟨ty, ey⟩ := hc y
    rw [ex, ey, List.cons_lt_cons_iff]
    left
    rw [hxd, hyd]
    exact hab
  · intro key
    simp only [List.mem_flatMap, mem_sortedUnique, mem_uniqueRows]
    constructor
    · rintro ⟨d, hd, hk⟩
      obtain ⟨r, hr, rfl⟩ := List.mem_map.1 hk
      rw [List.mem_filter, hin] at hr
      refine List.mem_map_of_mem (List.mem_filter.2 ⟨hr.1.1, ?_⟩)
      rw [hM d r hr.1.1 hr.1.2, hr.2]
    · intro hk
      obtain ⟨r, hr, rfl⟩ := List.mem_map.1 hk
      rw [List.mem_filter] at hr
      refine ⟨r.datum, ?_, ?_⟩
      · obtain ⟨f, hf, rfl⟩ := List.mem_map.1 hr.1
        exact List.mem_map_of_mem hf
      · refine List.mem_map_of_mem (List.mem_filter.2 ⟨(hin _ _).2 ⟨hr.1, rfl⟩, ?_⟩)
        rw [← hM r.datum r hr.1 rfl, hr.2]

theorem on_eq {d : Int} {r : Row} (h : r.datum = d) : onDatums (fun x => decide (x = d)) r = true := by
  unfold onDatums
  simpa using h

theorem textOf_datum {tbl : List FRow} (col : Row → Int) (uid : FRow → Option String) {d k : Int} (hk : 0 ≤ k)
    (ho : ∀ f ∈ tbl, col f.row = k → f.row.datum = d) :
    textOf (createMapping tbl col uid) k = textOf (createMapping (tbl.filter (fun f => decide (f.row.datum = d))) col uid) k := by
  unfold textOf
  rw [lookup_datums col uid (fun x => decide (x = d)) hk (fun f hf he => by simpa using ho f hf he)]

/-- The matched pairs, datum by datum. -/
theorem match_split (h : TableOk L tbl) (t s : Rat) : (matchRows tbl t s).map (matchTexts L tbl)
    = (sortedUnique (tbl.map (fun f => f.row.datum))).flatMap (fun d => (matchRows (tbl.filter (fun f => decide (f.row.datum = d))) t s).map
      (matchTexts L (tbl.filter (fun f => decide (f.row.datum = d))))) := by
  have hsplit : matchRows tbl t s = _ := split_rows (fun rows r => pairTp rows t s r || pairMisclf rows t s r)
    (fun r => [r.datum, r.gt, r.pd, r.gl, r.pl]) (fun r => ⟨_, rfl⟩) tbl (by
      intro d r hr hd
      have := thresholded_filter _ h.owned t s hr (on_eq hd)
      rw [rows_filter] at this
      unfold pairTp pairMisclf
      rw [this])
  rw [hsplit, List.map_flatMap]
  apply List.flatMap_congr
  intro d _
  apply List.map_congr_left
  intro key hkey
  rw [mem_uniqueRows, List.mem_map] at hkey
  obtain ⟨r, hr, rfl⟩ := hkey
  rw [List.mem_filter] at hr
  obtain ⟨f, hf, rfl⟩ := List.mem_map.1 hr.1
  rw [List.mem_filter, decide_eq_true_eq] at hf
  have hfm := List.mem_map_of_mem (f := FRow.row) hf.1
  have hok : TableOk L (tbl.filter (fun f => decide (f.row.datum = d))) :=
    ⟨h.owned.subset (fun x hx => by obtain ⟨y, hy, rfl⟩ := List.mem_map.1 hx; exact List.mem_map_of_mem (List.mem_filter.1 hy).1), h.labels,
      fun f hf => h.gl f (List.mem_filter.1 hf).1, fun f hf => h.pl f (List.mem_filter.1 hf).1⟩
  obtain ⟨_, h0, h0'⟩ := matched_pos hok hr.1 hr.2
  unfold matchTexts
  simp only [List.getD_cons_succ, List.getD_cons_zero]
  congr 1
  congr 1
  · exact textOf_datum Row.datum _ (h.owned.ids _ hfm).2.2.1 (fun f' _ he => by rw [he, hf.2])
  · congr 1
    · exact textOf_datum Row.gt _ h0 (fun f' hf' he => by rw [h.owned.gts f'.row (List.mem_map_of_mem hf') f.row hfm (by omega) he, hf.2])
    · exact textOf_datum Row.pd _ h0' (fun f' hf' he => by rw [h.owned.pds f'.row (List.mem_map_of_mem hf') f.row hfm (by omega) he, hf.2])

/-- The unmatched ground truths, datum by datum. -/
theorem ugt_split (h : TableOk L tbl) (t s : Rat) : (ugtRows tbl t s).map (ugtTexts L tbl)
    = (sortedUnique (tbl.map (fun f => f.row.datum))).flatMap (fun d => (ugtRows (tbl.filter (fun f => decide (f.row.datum = d))) t s).map
      (ugtTexts L (tbl.filter (fun f => decide (f.row.datum = d))))) := by
  have hsplit : ugtRows tbl t s = _ := split_rows (fun rows r => pairFn rows t s r)
    (fun r => [r.datum, r.gt, r.gl]) (fun r => ⟨_, rfl⟩) tbl (by
      intro d r hr hd
      have := pairFn_filter _ h.owned t s hr (on_eq hd)
      rw [rows_filter] at this
      exact this)
  rw [hsplit, List.map_flatMap]
  apply List.flatMap_congr
  intro d _
  apply List.map_congr_left
  intro key hkey
  rw [mem_uniqueRows, List.mem_map] at hkey
  obtain ⟨r, hr, rfl⟩ := hkey
  rw [List.mem_filter] at hr
  obtain ⟨f, hf, rfl⟩ := List.mem_map.1 hr.1
  rw [List.mem_filter, decide_eq_true_eq] at hf
  have hfm := List.mem_map_of_mem (f := FRow.row) hf.1
  have hok : Owned ((tbl.filter (fun f => decide (f.row.datum = d))).map FRow.row) :=
    h.owned.subset (fun x hx => by obtain ⟨y, hy, rfl⟩ := List.mem_map.1 hx; exact List.mem_map_of_mem (List.mem_filter.1 hy).1)
  have h0 := ((pairFn_spec hok t s hr.1).1 hr.2).2
  unfold ugtTexts
  simp only [List.getD_cons_succ, List.getD_cons_zero]
  congr 1
  congr 1
  · exact textOf_datum Row.datum _ (h.owned.ids _ hfm).2.2.1 (fun f' _ he => by rw [he, hf.2])
  · exact textOf_datum Row.gt _ h0 (fun f' hf' he => by rw [h.owned.gts f'.row (List.mem_map_of_mem hf') f.row hfm (by omega) he, hf.2])

/-- The unmatched predictions, datum by datum. -/
theorem upd_split (h : TableOk L tbl) (t s : Rat) : (updRows tbl t s).map (updTexts L tbl)
    = (sortedUnique (tbl.map (fun f => f.row.datum))).flatMap (fun d => (updRows (tbl.filter (fun f => decide (f.row.datum = d))) t s).map
      (updTexts L (tbl.filter (fun f => decide (f.row.datum = d))))) := by
  have hsplit : updRows tbl t s = _ := split_rows (fun rows r => pairFp rows t s r)
    (fun r => [r.datum, r.pd, r.pl]) (fun r => ⟨_, rfl⟩) tbl (by
      intro d r hr hd
      have := pairFp_filter _ h.owned t s hr (on_eq hd)
      rw [rows_filter] at this
      exact this)
  rw [hsplit, List.map_flatMap]
  apply List.flatMap_congr
  intro d _
  apply List.map_congr_left
  intro key hkey
  rw [mem_uniqueRows, List.mem_map] at hkey
  obtain ⟨r, hr, rfl⟩ := hkey
  rw [List.mem_filter] at hr
  obtain ⟨f, hf, rfl⟩ := List.mem_map.1 hr.1
  rw [List.mem_filter, decide_eq_true_eq] at hf
  have hfm := List.mem_map_of_mem (f := FRow.row) hf.1
  have hok : Owned ((tbl.filter (fun f => decide (f.row.datum = d))).map FRow.row) :=
    h.owned.subset (fun x hx => by obtain ⟨y, hy, rfl⟩ := List.mem_map.1 hx; exact List.mem_map_of_mem (List.mem_filter.1 hy).1)
  have h0 := ((pairFp_spec hok t s hr.1).1 hr.2).1.2
  unfold updTexts
  simp only [List.getD_cons_succ, List.getD_cons_zero]
  congr 1
  congr 1
  · exact textOf_datum Row.datum _ (h.owned.ids _ hfm).2.2.1 (fun f' _ he => by rw [he, hf.2])
  · exact textOf_datum Row.pd _ h0 (fun f' hf' he => by rw [h.owned.pds f'.row (List.mem_map_of_mem hf') f.row hfm (by omega) he, hf.2])

/-! ## Content -/

/-- The first label of an annotation. -/
def hasLabel (l : List Ann) (i : Nat) (label : String) : Bool := decide ((l[i]?).map (fun a => a.labels.headD "") = some label)

/-- The matched pairs of a detection with the given labels. -/
def matchedIn (x : Det × (Nat → Nat → Rat)) (G : Nat → Nat → Bool) (t s : Rat) (gl pl : String) :
    List (Option String × Option String × Option String) :=
  (List.range x.1.gts.length).flatMap (fun g => ((List.range x.1.pds.length).filter (fun p =>
    pairPasses x G t s g p && (hasLabel x.1.gts g gl && hasLabel x.1.pds p pl))).map
      (fun p => (some x.1.uid, (x.1.gts[g]?).map Ann.uid, (x.1.pds[p]?).map Ann.uid)))

/-- The ground truths of a detection with the given label that are in no chosen pair that passes the thresholds. -/
def missedIn (x : Det × (Nat → Nat → Rat)) (G : Nat → Nat → Bool) (t s : Rat) (l : String) : List (Option String × Option String) :=
  ((List.range x.1.gts.length).filter (fun g => !(List.range x.1.pds.length).any (pairPasses x G t s g) && hasLabel x.1.gts g l)).map
    (fun g => (some x.1.uid, (x.1.gts[g]?).map Ann.uid))

/-- The predictions of a detection with the given label and a passing score that are in no chosen pair that passes the
thresholds. -/
def extraIn (x : Det × (Nat → Nat → Rat)) (G : Nat → Nat → Bool) (t s : Rat) (l : String) : List (Option String × Option String) :=
  ((List.range x.1.pds.length).filter (fun p => (scorePasses x s p &&
    !(List.range x.1.gts.length).any (fun g => pairPasses x G t s g p)) && hasLabel x.1.pds p l)).map
    (fun p => (some x.1.uid, (x.1.pds[p]?).map Ann.uid))

/-- What a confusion matrix with examples must say: each cell lists its pairs or annotations, detection by detection. -/
structure CmEntry (H : History) (ks : List Nat) (G : Nat → Nat → Nat → Bool) (t s : Rat) (m : CmExamples) : Prop where
  cm : ∀ gl pl, (m.cm gl pl).examples = ks.flatMap (fun k => (H[k]?).elim [] (fun x => matchedIn x (G k) t s gl pl))
  ugt : ∀ l, (m.ugt l).examples = ks.flatMap (fun k => (H[k]?).elim [] (fun x => missedIn x (G k) t s l))
  upd : ∀ l, (m.upd l).examples = ks.flatMap (fun k => (H[k]?).elim [] (fun x => extraIn x (G k) t s l))

variable {x : Det × (Nat → Nat → Rat)} {k g0 p0 : Nat}

theorem text_gtLab (P : Payload L x k g0 p0 tbl) {g : Nat} (hg : g < x.1.gts.length) (l : String) :
    decide (labelText L (gtLab L x g) = l) = hasLabel x.1.gts g l := by
  obtain ⟨f, hf, he⟩ := gt_row P (List.getElem?_eq_getElem hg)
  obtain ⟨g', ga, hg', e', _, _, hm⟩ := gt_in P hf (by omega)
  have : g' = g := by omega
  subst this
  unfold gtLab labelText hasLabel
  rw [hg']
  apply decide_eq_decide.2
  simp only [Option.map_some, Option.getD_some, Int.toNat_natCast, Option.some.injEq]
  rw [List.getD_eq_getElem?_getD, List.getElem?_eq_getElem (List.idxOf_lt_length_of_mem hm), List.getElem_idxOf]
  rfl

theorem text_pdLab (P : Payload L x k g0 p0 tbl) {p : Nat} (hp : p < x.1.pds.length) (l : String) :
    decide (labelText L (pdLab L x p) = l) = hasLabel x.1.pds p l := by
  obtain ⟨f, hf, he⟩ := pd_row P (List.getElem?_eq_getElem hp)
  obtain ⟨p', pa, hp', e', _, _, _, hm⟩ := pd_in P hf (by omega)
  have : p' = p := by omega
  subst this
  unfold pdLab labelText hasLabel
  rw [hp']
  apply decide_eq_decide.2
  simp only [Option.map_some, Option.getD_some, Int.toNat_natCast, Option.some.injEq]
  rw [List.getD_eq_getElem?_getD, List.getElem?_eq_getElem (List.idxOf_lt_length_of_mem hm), List.getElem_idxOf]
  rfl

theorem and_datum (P : Payload L x k g0 p0 tbl) (M : Row → Bool) : (tbl.map FRow.row).filter M
    = (tbl.map FRow.row).filter (fun r => M r && decide (r.datum = (k : Int))) := by
  apply List.filter_congr
  intro r hr
  rw [rows_datum P hr]
  simp

theorem match_payload (P : Payload L x k g0 p0 tbl) (hne : tbl ≠ []) (t s : Rat) (gl pl : String) :
    withLabel (gl, pl) ((matchRows tbl t s).map (matchTexts L tbl)) = matchedIn x (chosenPairs tbl g0 p0) t s gl pl := by
  have hrows : matchRows tbl t s = (pairsWith x (fun g p => pairPasses x (chosenPairs tbl g0 p0) t s g p && true)).map
      (fun y => [(k : Int), ((g0 + y.1 : Nat) : Int), ((p0 + y.2 : Nat) : Int), gtLab L x y.1, pdLab L x y.2]) := by
    have h := pair_rows P t s (fun _ => true) (fun _ _ => true) (fun _ _ _ _ _ _ _ => rfl)
    unfold matchRows
    rw [← h, and_datum P]
    congr 2
    apply List.filter_congr
    intro r _
    unfold pairTp pairMisclf
    cases thresholded (tbl.map FRow.row) t s r <;> cases gtPdMatch r <;> rfl
  rw [hrows]
  unfold withLabel
  rw [List.filter_map, List.filter_map, List.map_map, List.map_map]
  unfold matchedIn pairsWith
  rw [List.filter_flatMap, List.map_flatMap]
  apply List.flatMap_congr
  intro g hg
  rw [List.mem_range] at hg
  rw [List.filter_map, List.map_map, List.filter_filter]
  have : (List.range x.1.pds.length).filter (fun p => pairPasses x (chosenPairs tbl g0 p0) t s g p && (hasLabel x.1.gts g gl && hasLabel x.1.pds p pl))
      = (List.range x.1.pds.length).filter (fun a => (((fun x => decide (x.1 = (gl, pl))) ∘ matchTexts L tbl) ∘
        fun y : Nat × Nat => [(k : Int), ((g0 + y.1 : Nat) : Int), ((p0 + y.2 : Nat) : Int), gtLab L x y.1, pdLab L x y.2]) (g, a) &&
          (pairPasses x (chosenPairs tbl g0 p0) t s g a && true)) := by
    apply List.filter_congr
    intro p hp
    rw [List.mem_range] at hp
    unfold matchTexts
    simp only [Function.comp_apply, List.getD_cons_succ, List.getD_cons_zero, Prod.mk.injEq, Bool.decide_and, Bool.and_true]
    rw [text_gtLab P hg, text_pdLab P hp, Bool.and_comm]
  rw [this]
  apply List.map_congr_left
  intro p hp
  rw [List.mem_filter, List.mem_range] at hp
  unfold matchTexts textOf
  have e1 := lookup_gt P (List.getElem?_eq_getElem hg)
  have e2 := lookup_pd P (List.getElem?_eq_getElem hp.1)
  have e3 := lookup_datum P hne
  simp only [Function.comp_apply, List.getD_cons_succ, List.getD_cons_zero]
  rw [e1, e2, e3, List.getElem?_eq_getElem hg, List.getElem?_eq_getElem hp.1]
  rfl

theorem any_passes {G : Nat → Nat → Bool} (hG : Greedy x G) {t s : Rat} {g : Nat} :
    (∃ p, pairPasses x G t s g p = true) ↔ (List.range x.1.pds.length).any (pairPasses x G t s g) = true := by
  rw [List.any_eq_true]
  constructor
  · rintro ⟨p, hp⟩
    exact ⟨p, List.mem_range.2 (hG.range g p (passes_chosen hp).1).2.1, hp⟩
  · rintro ⟨p, _, hp⟩
    exact ⟨p, hp⟩

theorem any_passes' {G : Nat → Nat → Bool} (hG : Greedy x G) {t s : Rat} {p : Nat} :
    (∃ g, pairPasses x G t s g p = true) ↔ (List.range x.1.gts.length).any (fun g => pairPasses x G t s g p) = true := by
  rw [List.any_eq_true]
  constructor
  · rintro ⟨g, hp⟩
    exact ⟨g, List.mem_range.2 (hG.range g p (passes_chosen hp).1).1, hp⟩
  · rintro ⟨g, _, hp⟩
    exact ⟨g, hp⟩

theorem ugt_payload (P : Payload L x k g0 p0 tbl) (hne : tbl ≠ []) (t s : Rat) (l : String) :
    withLabel l ((ugtRows tbl t s).map (ugtTexts L tbl)) = missedIn x (chosenPairs tbl g0 p0) t s l := by
  have hG := chosen_greedy P
  have hrows : ugtRows tbl t s = ((List.range x.1.gts.length).filter (fun g => !(List.range x.1.pds.length).any
      (pairPasses x (chosenPairs tbl g0 p0) t s g))).map (fun g => [(k : Int), ((g0 + g : Nat) : Int), gtLab L x g]) := by
    have h := gt_rows P (pairFn (tbl.map FRow.row) t s)
      (fun g => !(List.range x.1.pds.length).any (pairPasses x (chosenPairs tbl g0 p0) t s g))
      (fun r hr h => ((pairFn_spec P.owned t s hr).1 h).2)
      (by
        intro r hr g he h
        rw [Bool.not_eq_true', ← Bool.not_eq_true, ← any_passes hG]
        exact (fn_iff P hr he).1 h)
      (by
        intro g hg hQ
        rw [Bool.not_eq_true', ← Bool.not_eq_true, ← any_passes hG] at hQ
        obtain ⟨f, hf, he⟩ := gt_row P (List.getElem?_eq_getElem hg)
        exact ⟨f.row, List.mem_map_of_mem hf, he, (fn_iff P (List.mem_map_of_mem hf) he).2 hQ⟩)
    unfold ugtRows
    rw [and_datum P, h]
  rw [hrows]
  unfold withLabel
  rw [List.filter_map, List.filter_map, List.map_map, List.map_map, List.filter_filter]
  unfold missedIn
  have : (List.range x.1.gts.length).filter (fun a => (((fun x => decide (x.1 = l)) ∘ ugtTexts L tbl) ∘
      fun g : Nat => [(k : Int), ((g0 + g : Nat) : Int), gtLab L x g]) a &&
        !(List.range x.1.pds.length).any (pairPasses x (chosenPairs tbl g0 p0) t s a))
      = (List.range x.1.gts.length).filter (fun g => !(List.range x.1.pds.length).any (pairPasses x (chosenPairs tbl g0 p0) t s g) && hasLabel x.1.gts g l) := by
    apply List.filter_congr
    intro g hg
    rw [List.mem_range] at hg
    unfold ugtTexts
    simp only [Function.comp_apply, List.getD_cons_succ, List.getD_cons_zero]
    rw [text_gtLab P hg, Bool.and_comm]
  rw [this]
  apply List.map_congr_left
  intro g hg
  rw [List.mem_filter, List.mem_range] at hg
  unfold ugtTexts textOf
  have e1 := lookup_gt P (List.getElem?_eq_getElem hg.1)
  have e3 := lookup_datum P hne
  simp only [Function.comp_apply, List.getD_cons_succ, List.getD_cons_zero]
  rw [e1, e3, List.getElem?_eq_getElem hg.1]
  rfl

theorem upd_payload (P : Payload L x k g0 p0 tbl) (hne : tbl ≠ []) (t s : Rat) (l : String) :
    withLabel l ((updRows tbl t s).map (updTexts L tbl)) = extraIn x (chosenPairs tbl g0 p0) t s l := by
  have hG := chosen_greedy P
  have hsc : ∀ r ∈ tbl.map FRow.row, ∀ p, r.pd = ((p0 + p : Nat) : Int) → maskScore s r = scorePasses x s p := by
    intro r hr p he
    obtain ⟨f, hf, rfl⟩ := List.mem_map.1 hr
    obtain ⟨p', pa, hp', e', _, _, e3, _⟩ := pd_in P hf (by omega)
    have : p' = p := by omega
    subst this
    exact score_passes hp' e3 s
  have hrows : updRows tbl t s = ((List.range x.1.pds.length).filter (fun p => scorePasses x s p && !(List.range x.1.gts.length).any
      (fun g => pairPasses x (chosenPairs tbl g0 p0) t s g p))).map (fun p => [(k : Int), ((p0 + p : Nat) : Int), pdLab L x p]) := by
    have h := pd_rows P (pairFp (tbl.map FRow.row) t s)
      (fun p => scorePasses x s p && !(List.range x.1.gts.length).any (fun g => pairPasses x (chosenPairs tbl g0 p0) t s g p))
      (fun r hr h => ((pairFp_spec P.owned t s hr).1 h).1.2)
      (by
        intro r hr p he h
        rw [Bool.and_eq_true, Bool.not_eq_true', ← Bool.not_eq_true, ← any_passes' hG]
        have := (fp_iff P hr he).1 h
        exact ⟨by rw [← hsc r hr p he]; exact this.2, this.1⟩)
      (by
        intro p hp hQ
        rw [Bool.and_eq_true, Bool.not_eq_true', ← Bool.not_eq_true, ← any_passes' hG] at hQ
        obtain ⟨f, hf, he⟩ := pd_row P (List.getElem?_eq_getElem hp)
        exact ⟨f.row, List.mem_map_of_mem hf, he, (fp_iff P (List.mem_map_of_mem hf) he).2
          ⟨hQ.2, by rw [hsc _ (List.mem_map_of_mem hf) p he]; exact hQ.1⟩⟩)
    unfold updRows
    rw [and_datum P, h]
  rw [hrows]
  unfold withLabel
  rw [List.filter_map, List.filter_map, List.map_map, List.map_map, List.filter_filter]
  unfold extraIn
  have : (List.range x.1.pds.length).filter (fun a => (((fun x => decide (x.1 = l)) ∘ updTexts L tbl) ∘
      fun p : Nat => [(k : Int), ((p0 + p : Nat) : Int), pdLab L x p]) a &&
        (scorePasses x s a && !(List.range x.1.gts.length).any (fun g => pairPasses x (chosenPairs tbl g0 p0) t s g a)))
      = (List.range x.1.pds.length).filter (fun p => (scorePasses x s p &&
        !(List.range x.1.gts.length).any (fun g => pairPasses x (chosenPairs tbl g0 p0) t s g p)) && hasLabel x.1.pds p l) := by
    apply List.filter_congr
    intro p hp
    rw [List.mem_range] at hp
    unfold updTexts
    simp only [Function.comp_apply, List.getD_cons_succ, List.getD_cons_zero]
    rw [text_pdLab P hp, Bool.and_comm]
  rw [this]
  apply List.map_congr_left
  intro p hp
  rw [List.mem_filter, List.mem_range] at hp
  unfold updTexts textOf
  have e1 := lookup_pd P (List.getElem?_eq_getElem hp.1)
  have e3 := lookup_datum P hne
  simp only [Function.comp_apply, List.getD_cons_succ, List.getD_cons_zero]
  rw [e1, e3, List.getElem?_eq_getElem hp.1]
  rfl

/-- The confusion matrix, for the choice of the model. -/
theorem cm_entry {calls : List History} (hH : HistoryOk calls.flatten) (hO : OneLabel calls.flatten)
    (hS : SizesOk (Loader.init.addAll calls)) {tables : List (List FRow)} (h : StoredSorted (Loader.init.addAll calls).rows tables)
    (datums : Option Expr) (D : Int → Bool)
    (hm : ∀ f ∈ (Loader.init.addAll calls).rows.flatten, datums.getD (fun _ => true) f = D f.row.datum)
    (ious scores : List Rat) (hi : ious ≠ []) (hs : scores ≠ []) :
    ∃ ms, evalCmExamples tables datums (Loader.init.addAll calls).labels ious scores = some ms ∧
      ms.map Prod.fst = ious.flatMap (fun t => scores.map (fun s => (t, s))) ∧
      ∀ y ∈ ms, CmEntry calls.flatten (keptDatums calls.flatten D) (choice calls) y.1.1 y.1.2 y.2 := by
  have hok : ∀ T ∈ tables, TableOk (Loader.init.addAll calls).labels (readTable datums T) :=
    fun T hT => table_ok hH hS (read_mem h datums hT)
  have hpS := parts_stored h
  have hread : tables.map (readTable datums) = tables.map (List.filter (fun f => D f.row.datum)) := by
    apply List.map_congr_left
    intro T hT
    have : readTable datums T = T.filter (datums.getD (fun _ => true)) := by
      cases datums with
      | none => simp [readTable]
      | some e => rfl
    rw [this]
    apply List.filter_congr
    intro f hf
    exact hm f (hpS.mem T hT f hf)
  have hparts : Parts calls (tables.map (readTable datums)) := by
    rw [hread]
    exact (restricts_filter D tables).parts hpS
  have hidx : keyIndex (fun f : FRow => f.row.datum) (tables.map (readTable datums)) = (keptDatums calls.flatten D).map (fun k : Nat => (k : Int)) := by
    rw [hread]
    exact keyIndex_kept hH hO hS h _ D (fun _ _ => rfl)
  have hT : ∀ T ∈ tables.map (readTable datums), TableOk (Loader.init.addAll calls).labels T := by
    intro T hT
    obtain ⟨T', hT', rfl⟩ := List.mem_map.1 hT
    exact hok T' hT'
  refine ⟨_, evalCm_lists datums _ hok ious scores hi hs, ?_, ?_⟩
  · rw [List.map_map]
    exact List.map_id _
  · intro y hy
    obtain ⟨⟨t, s⟩, _, rfl⟩ := List.mem_map.1 hy
    clear hy
    dsimp only
    generalize tables.map (readTable datums) = ts at hparts hidx hT
    have key : ∀ {β : Type} (W : List FRow → List β) (E : Nat → List β),
        (∀ T ∈ ts, W T = (sortedUnique (T.map (fun f => f.row.datum))).flatMap (fun d => W (T.filter (fun f => decide (f.row.datum = d))))) →
        (∀ k ∈ keptDatums calls.flatten D, W (payloadOf calls k) = E k) →
        ts.flatMap W = (keptDatums calls.flatten D).flatMap E := by
      intro β W E hW hE
      have h1 : ts.flatMap W = ts.flatMap (fun T => (sortedUnique (T.map (fun f => f.row.datum))).flatMap (fun d => W (payloadOf calls d.toNat))) := by
        apply List.flatMap_congr
        intro T hT
        rw [hW T hT]
        apply List.flatMap_congr
        intro d hd
        rw [mem_sortedUnique, List.mem_map] at hd
        obtain ⟨f, hf, rfl⟩ := hd
        rw [hparts.part T hT f hf]
      rw [h1, ← List.flatMap_assoc]
      show (keyIndex (fun f : FRow => f.row.datum) ts).flatMap _ = _
      rw [hidx, List.flatMap_map]
      apply List.flatMap_congr
      intro k hk
      rw [Int.toNat_natCast]
      exact hE k hk
    have hkept : ∀ k ∈ keptDatums calls.flatten D, ∃ x, calls.flatten[k]? = some x ∧
        Payload (Loader.init.addAll calls).labels x k (gtOffset calls.flatten k) (pdOffset calls.flatten k) (payloadOf calls k) ∧
        payloadOf calls k ≠ [] := by
      intro k hk
      unfold keptDatums at hk
      rw [List.mem_filter, List.mem_range, Bool.and_eq_true] at hk
      have hx := List.getElem?_eq_getElem hk.1
      exact ⟨_, hx, payload_ok hH hO hS hx, payload_nonempty hH hO hS hk.2.2⟩
    unfold CmExamples.addLists CmExamples.empty Cell.addAll
    refine ⟨?_, ?_, ?_⟩
    · intro gl pl
      dsimp only
      rw [List.nil_append, withLabel_flatMap]
      apply key
      · intro T hTm
        rw [match_split (hT T hTm), withLabel_flatMap]
      · intro k hk
        obtain ⟨x, hx, P, hne⟩ := hkept k hk
        rw [match_payload P hne, hx]
        rfl
    · intro l
      dsimp only
      rw [List.nil_append, withLabel_flatMap]
      apply key
      · intro T hTm
        rw [ugt_split (hT T hTm), withLabel_flatMap]
      · intro k hk
        obtain ⟨x, hx, P, hne⟩ := hkept k hk
        rw [ugt_payload P hne, hx]
        rfl
    · intro l
      dsimp only
      rw [List.nil_append, withLabel_flatMap]
      apply key
      · intro T hTm
        rw [upd_split (hT T hTm), withLabel_flatMap]
      · intro k hk
        obtain ⟨x, hx, P, hne⟩ := hkept k hk
        rw [upd_payload P hne, hx]
        rfl

/-- **C59 (confusion matrix and examples).** Missing for the full property: predictions with several labels, where it fails
(`C59_multi_label_violation`). For all detections added in any calls there is one greedy choice of pairs such that for every
storage of the cache, every filter on datums, all thresholds and all pages: the examples are the entries of the detections, and
the cells of the confusion matrix list, detection by detection, the chosen pairs that pass the thresholds and the annotations
left over. -/
theorem C59_same_choice_partial {calls : List History} (hH : HistoryOk calls.flatten) (hO : OneLabel calls.flatten)
    (hS : SizesOk (Loader.init.addAll calls)) :
    ∃ G : Nat → Nat → Nat → Bool, (∀ k x, calls.flatten[k]? = some x → Greedy x (G k)) ∧
    ∀ (tables : List (List FRow)), StoredSorted (Loader.init.addAll calls).rows tables →
    ∀ (datums : Option Expr) (D : Int → Bool),
      (∀ f ∈ (Loader.init.addAll calls).rows.flatten, datums.getD (fun _ => true) f = D f.row.datum) →
    ∀ (ious scores : List Rat), ious ≠ [] → scores ≠ [] →
    (∀ (limit : Option Nat) (offset : Nat), ∃ out, evalExamples tables datums ious scores limit offset = some out ∧
      List.Forall₂ (fun (y : Nat × Rat × Rat) e => ∃ x, calls.flatten[y.1]? = some x ∧ Entry x (G y.1) y.2.1 y.2.2 e)
        ((pageOf limit offset (keptDatums calls.flatten D)).flatMap (fun k => ious.flatMap (fun t => scores.map (fun s => (k, t, s))))) out) ∧
    ∃ ms, evalCmExamples tables datums (Loader.init.addAll calls).labels ious scores = some ms ∧
      ms.map Prod.fst = ious.flatMap (fun t => scores.map (fun s => (t, s))) ∧
      ∀ y ∈ ms, CmEntry calls.flatten (keptDatums calls.flatten D) G y.1.1 y.1.2 y.2 :=
  ⟨choice calls, fun _ _ hk => chosen_greedy (payload_ok hH hO hS hk), fun _ h datums D hm ious scores hi hs =>
    ⟨fun limit offset => examples_entry hH hO hS h datums D hm ious scores hi hs limit offset,
      cm_entry hH hO hS h datums D hm ious scores hi hs⟩⟩

/-- The hypotheses hold for the sample, which has matched and left over annotations. -/
example : HistoryOk sampleCalls.flatten ∧ OneLabel sampleCalls.flatten ∧ SizesOk (Loader.init.addAll sampleCalls) ∧
    StoredSorted (Loader.init.addAll sampleCalls).rows [Verif.Cache.sortBy fKey (Loader.init.addAll sampleCalls).rows.flatten] ∧
    (matchedIn sampleDet (fun g p => decide (g = 0 ∧ p = 0)) (1 / 2) (1 / 2) "a" "a").length = 1 ∧
    (missedIn sampleDet (fun g p => decide (g = 0 ∧ p = 0)) (1 / 2) (1 / 2) "c").length = 1 ∧
    (extraIn sampleDet (fun g p => decide (g = 0 ∧ p = 0)) (1 / 2) (1 / 2) "b").length = 1 :=
  ⟨sampleCalls_ok.1, sampleCalls_ok.2.1, sampleCalls_ok.2.2, storedSorted_mem _, by decide +kernel, by decide +kernel, by decide +kernel⟩

end Verif.Detection
