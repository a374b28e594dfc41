import Verif.Detection.CmDivision

/-!
# C56, C58 for caches written by the loader and by `filter`
-/

namespace Verif.Detection

open Verif.Cache (WOp FileW payloads sortBy SortedBy StableOf sorted_stable_unique sortBy_sorted sortBy_stable stable_flatten_map)

/-- The sort key of the detailed cache on full rows. -/
def fKey (f : FRow) : List Rat := rankKey f.row

/-- The detailed cache after `finalize`: whole payloads are grouped into tables, and each table is sorted by score and
IoU (`evaluator.py` 184-192). -/
def StoredSorted (rows tables : List (List FRow)) : Prop :=
  ∃ groups : List (List (List FRow)), groups.flatten = rows.filter (fun p => !p.isEmpty) ∧
    tables = groups.map (fun g => sortBy fKey g.flatten)

/-- The file cache, for every batch size and file size. `op` is `write_rows` or `write_table`. -/
theorem storedSorted_file (batchSize rowsPerFile : Nat) (ext : List Nat) (rows : List (List FRow))
    (op : List FRow → WOp FRow) (hop : op = WOp.rows ∨ op = WOp.table) :
    StoredSorted rows ((((FileW.create batchSize rowsPerFile true ext).run
      (rows.map op ++ [.flush])).closed.map Prod.snd).map (sortBy fKey)) := by
  obtain ⟨groups, h1, h2⟩ := Verif.Cache.C04_file_alignment batchSize rowsPerFile ext (rows.map op)
  refine ⟨groups, ?_, ?_⟩
  · rw [h1]
    unfold payloads
    rw [List.map_map]
    congr 1
    conv_rhs => rw [← List.map_id rows]
    apply List.map_congr_left
    intro l _
    rcases hop with rfl | rfl <;> rfl
  · rw [h2, List.map_map]
    rfl

theorem flatten_nonempty {α : Type} (rows : List (List α)) : (rows.filter (fun p => !p.isEmpty)).flatten = rows.flatten := by
  induction rows with
  | nil => rfl
  | cons p ps ih =>
    cases p with
    | nil => simp [ih]
    | cons a l => simp [ih]

/-- The one table in memory. -/
theorem storedSorted_mem (rows : List (List FRow)) : StoredSorted rows [sortBy fKey rows.flatten] := by
  refine ⟨[rows.filter (fun p => !p.isEmpty)], by simp, ?_⟩
  rw [List.map_singleton, flatten_nonempty]

theorem StoredSorted.stored {rows tables : List (List FRow)} (h : StoredSorted rows tables) : Stored rows tables := by
  obtain ⟨groups, h1, rfl⟩ := h
  refine ⟨groups, h1, ?_⟩
  rw [List.forall₂_map_right_iff]
  apply List.forall₂_same.2
  intro g _
  exact (List.mergeSort_perm _ _).symm

/-- Sorting commutes with dropping the text columns. -/
theorem sortBy_row (p : List FRow) : (sortBy fKey p).map FRow.row = sortBy rankKey (p.map FRow.row) := by
  apply sorted_stable_unique (key := rankKey)
  · have := sortBy_sorted fKey p
    unfold SortedBy at this ⊢
    rw [List.pairwise_map]
    exact this
  · exact sortBy_sorted _ _
  · intro k
    rw [sortBy_stable rankKey (p.map FRow.row) k, List.filter_map, List.filter_map]
    congr 1
    exact sortBy_stable fKey p k

theorem pairwise_nonempty_flatten {R : FRow → FRow → Prop} {rows : List (List FRow)} {groups : List (List (List FRow))}
    (hg : groups.flatten = rows.filter (fun p => !p.isEmpty)) (h : rows.Pairwise (fun a b => ∀ x ∈ a, ∀ y ∈ b, R x y)) :
    groups.Pairwise (fun a b => ∀ x ∈ a.flatten, ∀ y ∈ b.flatten, R x y) := by
  have hp := h.filter (fun p => !p.isEmpty)
  rw [← hg, List.pairwise_flatten] at hp
  refine hp.2.imp ?_
  intro a b hab x hx y hy
  obtain ⟨p, hp, hxp⟩ := List.mem_flatten.1 hx
  obtain ⟨q, hq, hyq⟩ := List.mem_flatten.1 hy
  exact hab p hp q hq x hxp y hyq

/-- A sorted cache of payloads with ascending datums is a division of their rows. -/
theorem divides_stored {rows tables : List (List FRow)} (h : StoredSorted rows tables)
    (hd : rows.Pairwise (fun a b => ∀ x ∈ a, ∀ y ∈ b, x.row.datum < y.row.datum)) {all : List Row}
    (hall : @StableOf Row (List Rat) LinearOrder.toDecidableEq rankKey all (rows.flatten.map FRow.row)) : Divides all (rowsIn tables) := by
  obtain ⟨groups, hg, rfl⟩ := h
  refine ⟨groups.map (fun g => g.flatten.map FRow.row), ?_, ?_, ?_⟩
  · have : (groups.map (fun g => g.flatten.map FRow.row)).flatten = rows.flatten.map FRow.row := by
      rw [← flatten_nonempty rows, ← hg]
      clear hg hall
      induction groups with
      | nil => rfl
      | cons g gs ih => rw [List.map_cons, List.flatten_cons, ih, List.flatten_cons, List.flatten_append, List.map_append]
    rw [this]
    exact hall
  · rw [List.pairwise_map]
    refine (pairwise_nonempty_flatten (R := fun x y => x.row.datum < y.row.datum) hg hd).imp ?_
    intro a b hab x hx y hy
    obtain ⟨fx, hfx, rfl⟩ := List.mem_map.1 hx
    obtain ⟨fy, hfy, rfl⟩ := List.mem_map.1 hy
    exact hab fx hfx fy hfy
  · unfold rowsIn
    rw [List.map_map, List.map_map]
    apply List.map_congr_left
    intro g _
    exact sortBy_row g.flatten

theorem payload_datum (calls : List History) (k : Nat) (hk : k < (Loader.init.addAll calls).rows.length) :
    ∀ z ∈ (Loader.init.addAll calls).rows[k], z.row.datum = (k : Int) ∧ (0 ≤ z.row.gt ∨ 0 ≤ z.row.pd) := by
  obtain ⟨_, hlen, hrows⟩ := C34_rows calls
  intro z hz
  have hx : calls.flatten[k]? = some calls.flatten[k] := List.getElem?_eq_getElem (by omega)
  obtain ⟨payload, hp, hm⟩ := hrows k _ hx
  rw [List.getElem?_eq_getElem hk, Option.some.injEq] at hp
  rw [hp, hm] at hz
  rcases hz with ⟨_, _, _, _, rfl⟩ | ⟨_, _, _, _, _, _, _, rfl⟩ | ⟨_, _, _, _, _, _, _, _, _, _, _, _, rfl⟩
  · exact ⟨rfl, Or.inl (by simp only [gtRow]; omega)⟩
  · exact ⟨rfl, Or.inr (by simp only [pdRow]; omega)⟩
  · exact ⟨rfl, Or.inl (by simp only [pairRow]; omega)⟩

/-- The payloads of the loader have ascending datums. -/
theorem loader_ascending (calls : List History) :
    (Loader.init.addAll calls).rows.Pairwise (fun a b => ∀ x ∈ a, ∀ y ∈ b, x.row.datum < y.row.datum) := by
  rw [List.pairwise_iff_getElem]
  intro i j hi hj hij x hx y hy
  rw [(payload_datum calls i hi x hx).1, (payload_datum calls j hj y hy).1]
  omega

/-- The rows of the loader. -/
def loaderRows (calls : List History) : List Row := (Loader.init.addAll calls).rows.flatten.map FRow.row

theorem loader_divides {calls : List History} {tables : List (List FRow)} (h : StoredSorted (Loader.init.addAll calls).rows tables) :
    Divides (loaderRows calls) (rowsIn tables) :=
  divides_stored h (loader_ascending calls) (fun _ => rfl)

theorem loader_mem (calls : List History) (r : Row) : r ∈ loaderRows calls ↔
    r ∈ (rowsIn [sortBy fKey (Loader.init.addAll calls).rows.flatten]).flatten :=
  (divides_mem (loader_divides (storedSorted_mem _)) r).symm

/-- The rows of the loader meet the hypotheses, for predictions with any number of labels. -/
theorem loader_ok {calls : List History} (hH : HistoryOk calls.flatten) (hS : SizesOk (Loader.init.addAll calls)) :
    RowsOk (loaderRows calls) ∧ Owned (loaderRows calls) := by
  have hold := holding_of_stored (storedSorted_mem (Loader.init.addAll calls).rows).stored
  have hc := cacheOk_of_holding hold hH hS.labels
  have hm := loader_mem calls
  have hpd : PdOwned (loaderRows calls) := by
    intro a ha b hb h0 hab
    obtain ⟨k, x, f, _, hk, hf, rfl⟩ := (hold.rows a).1 ((hm a).1 ha)
    obtain ⟨k', x', f', _, hk', hf', rfl⟩ := (hold.rows b).1 ((hm b).1 hb)
    rcases hf.pd with ⟨e1, _⟩ | ⟨p, pa, l, hpa, hz, e1, e1l, _⟩
    · omega
    rcases hf'.pd with ⟨e2, _⟩ | ⟨p', pa', l', hpa', hz', e2, e2l, _⟩
    · omega
    rw [e1, e2] at hab
    obtain ⟨rfl, rfl⟩ := (C34_ids calls.flatten hk hk').2 (getElem?_lt hpa) (getElem?_lt hpa') (by exact_mod_cast hab)
    rw [hf.datum, hf'.datum]
  have hrow : ∀ r ∈ loaderRows calls, ∃ tbl ∈ rowsIn [sortBy fKey (Loader.init.addAll calls).rows.flatten], r ∈ tbl := by
    intro r hr
    exact List.mem_flatten.1 ((hm r).1 hr)
  have hgts : ∀ x ∈ loaderRows calls, ∀ y ∈ loaderRows calls, 0 ≤ x.gt → x.gt = y.gt → x.datum = y.datum ∧ x.gl = y.gl :=
    fun x hx y hy => hc.gts x ((hm x).1 hx) y ((hm y).1 hy)
  refine ⟨⟨?_, ?_, hgts, hpd⟩, ⟨?_, fun x hx y hy h0 he => (hgts x hx y hy h0 he).1, hpd⟩⟩
  · intro r hr
    obtain ⟨tbl, h1, h2⟩ := hrow r hr
    exact hc.iou tbl h1 r h2
  · intro r hr
    obtain ⟨tbl, h1, h2⟩ := hrow r hr
    exact hc.rows tbl h1 r h2
  · intro r hr
    have i := linv_addAll calls
    have hg := hS.gts
    have hp := hS.pds
    have hd := hS.datums
    rw [i.gts] at hg
    rw [i.pds] at hp
    rw [i.datums] at hd
    obtain ⟨k, x, f, hkp, hk, hf, rfl⟩ := (hold.rows r).1 ((hm r).1 hr)
    obtain ⟨o1, o2⟩ := offset_lt calls.flatten hk
    refine ⟨?_, ?_, ?_⟩
    · rcases hf.gt (hH.gtLabel x (List.mem_of_getElem? hk)) with ⟨e1, _⟩ | ⟨g, ga, hg', e1, _⟩
      · exact Or.inl e1
      · right
        have := o1 g (getElem?_lt hg')
        unfold IdOk
        omega
    · rcases hf.pd with ⟨e1, _⟩ | ⟨p, pa, l, hpa, _, e1, _⟩
      · exact Or.inl e1
      · right
        have := o2 p (getElem?_lt hpa)
        unfold IdOk
        omega
    · have := getElem?_lt hk
      rw [hf.datum]
      unfold IdOk
      omega

/-- **C58 (end to end).** For all detections added in any calls, also with several labels per prediction: two caches with
different storage (memory or files), batch sizes and file sizes give the same counts, curves, average precision and
confusion matrix. -/
theorem C58_loader {calls : List History} (hH : HistoryOk calls.flatten) (hS : SizesOk (Loader.init.addAll calls))
    {t1 t2 : List (List FRow)} (h1 : StoredSorted (Loader.init.addAll calls).rows t1) (h2 : StoredSorted (Loader.init.addAll calls).rows t2)
    {out1 out2 : List RRow} (r1 : RankedOf (rowsIn t1) out1) (r2 : RankedOf (rowsIn t2) out2) {chunks1 chunks2 : List (List RRow)}
    (c1 : chunks1.flatten = out1) (c2 : chunks2.flatten = out2) (t s : Rat) (l : Int) :
    (tpTotal t s chunks1 l = tpTotal t s chunks2 l ∧ fpTotal t s chunks1 l = fpTotal t s chunks2 l ∧
      fnTotal t s (rowsIn t1) chunks1 l = fnTotal t s (rowsIn t2) chunks2 l) ∧
    (curveOf t (gtCount (rowsIn t1) l) l chunks1).prec = (curveOf t (gtCount (rowsIn t2) l) l chunks2).prec ∧
    (curveOf t (gtCount (rowsIn t1) l) l chunks1).score = (curveOf t (gtCount (rowsIn t2) l) l chunks2).score ∧
    averagePrecision (curveOf t (gtCount (rowsIn t1) l) l chunks1).prec
      = averagePrecision (curveOf t (gtCount (rowsIn t2) l) l chunks2).prec ∧
    (∀ g p, cmTotal (rowsIn t1) t s g p = cmTotal (rowsIn t2) t s g p) ∧
    unmatchedGtTotal (rowsIn t1) t s l = unmatchedGtTotal (rowsIn t2) t s l ∧
    unmatchedPdTotal (rowsIn t1) t s l = unmatchedPdTotal (rowsIn t2) t s l := by
  obtain ⟨k1, k2⟩ := loader_ok hH hS
  obtain ⟨_, m1, m2, m3, m4⟩ := C58_division k1 (loader_divides h1) (loader_divides h2) r1 r2 c1 c2 t l
  obtain ⟨m5, m6, m7⟩ := C58_confusion k2 (loader_divides h1) (loader_divides h2) t s
  exact ⟨m1 s, m2, m3, m4, m5, m6 l, m7 l⟩

/-! ## `filter` -/

theorem clear_true (r : FRow) : clear true true r = r := by
  unfold clear
  simp

/-- Without conditions on annotations a table is only filtered by datums. -/
theorem filterTable_datums (d : Expr) (tbl : List FRow) (h : ∀ f ∈ tbl, 0 ≤ f.row.gt ∨ 0 ≤ f.row.pd) :
    filterTable none none (readTable (some d) tbl) = tbl.filter d := by
  unfold filterTable readTable validMask
  simp only [Bool.true_or, Bool.and_self, clear_true, List.map_id', Bool.not_true, Bool.false_or]
  rw [List.filter_filter]
  apply List.filter_congr
  intro f hf
  have : (decide (f.row.gt < 0) && decide (f.row.pd < 0)) = false := by
    rcases h f hf with h | h
    · simp; omega
    · simp; omega
  rw [this]
  simp

/-- The evaluator filtered by datums holds a division of the rows of these datums. -/
theorem filter_divides {calls : List History} {t1 t2 : List (List FRow)} (h1 : StoredSorted (Loader.init.addAll calls).rows t1)
    (d : Expr) (D : Int → Bool) (hd : ∀ f ∈ (Loader.init.addAll calls).rows.flatten, d f = D f.row.datum)
    (h2 : StoredSorted (filterTables (some d) none none t1) t2) :
    Divides ((loaderRows calls).filter (fun r => D r.datum)) (rowsIn t2) := by
  have hmem : ∀ f, f ∈ t1.flatten ↔ f ∈ (Loader.init.addAll calls).rows.flatten := stored_mem_iff h1.stored
  have hform : ∀ f ∈ t1.flatten, 0 ≤ f.row.gt ∨ 0 ≤ f.row.pd := by
    intro f hf
    obtain ⟨p, hp, hfp⟩ := List.mem_flatten.1 ((hmem f).1 hf)
    obtain ⟨k, hk, rfl⟩ := List.getElem_of_mem hp
    exact (payload_datum calls k hk f hfp).2
  have hF : filterTables (some d) none none t1 = t1.map (fun tbl => tbl.filter (fun f => D f.row.datum)) := by
    unfold filterTables
    apply List.map_congr_left
    intro tbl htbl
    rw [filterTable_datums d tbl (fun f hf => hform f (List.mem_flatten.2 ⟨tbl, htbl, hf⟩))]
    apply List.filter_congr
    intro f hf
    exact hd f ((hmem f).1 (List.mem_flatten.2 ⟨tbl, htbl, hf⟩))
  apply divides_stored h2
  · rw [hF, List.pairwise_map]
    obtain ⟨groups, hg, rfl⟩ := h1
    rw [List.pairwise_map]
    refine (pairwise_nonempty_flatten (R := fun x y => x.row.datum < y.row.datum) hg (loader_ascending calls)).imp ?_
    intro a b hab x hx y hy
    refine hab x ?_ y ?_
    · exact (List.mergeSort_perm _ _).mem_iff.1 (List.mem_filter.1 hx).1
    · exact (List.mergeSort_perm _ _).mem_iff.1 (List.mem_filter.1 hy).1
  · intro k
    have e1 : (filterTables (some d) none none t1).flatten.map FRow.row = (t1.flatten.map FRow.row).filter (fun r => D r.datum) := by
      rw [hF, ← List.filter_flatten, List.filter_map]
      rfl
    have key : (t1.flatten.map FRow.row).filter (fun x => @decide (rankKey x = k) (LinearOrder.toDecidableEq (rankKey x) k))
        = (loaderRows calls).filter (fun x => @decide (rankKey x = k) (LinearOrder.toDecidableEq (rankKey x) k)) := by
      obtain ⟨groups, hg, rfl⟩ := h1
      unfold loaderRows
      rw [← flatten_nonempty (Loader.init.addAll calls).rows, ← hg]
      have : (groups.map (fun g => sortBy fKey g.flatten)).flatten.map FRow.row
          = ((groups.map (fun g => g.flatten.map FRow.row)).map (sortBy rankKey)).flatten := by
        rw [List.map_flatten, List.map_map, List.map_map]
        congr 1
        apply List.map_congr_left
        intro g _
        exact sortBy_row g.flatten
      rw [this]
      have hs := stable_flatten_map (key := rankKey) (f := sortBy rankKey) (groups.map (fun g => g.flatten.map FRow.row))
        (fun t => sortBy_stable rankKey t) k
      refine hs.trans ?_
      congr 1
      clear hs this e1 hF hform hmem hg h2
      induction groups with
      | nil => rfl
      | cons g gs ih => rw [List.map_cons, List.flatten_cons, ih, List.flatten_cons, List.flatten_append, List.map_append]
    rw [e1, List.filter_comm, key, List.filter_comm]

/-- **C56 (detection, end to end).** For all detections added in any calls, every storage of the cache and every filter
expression on datums: precision-recall counts, curves, average precision and confusion matrix computed with the
filter are those of the evaluator that `filter` returns. -/
theorem C56_detection_loader {calls : List History} (hH : HistoryOk calls.flatten) (hS : SizesOk (Loader.init.addAll calls))
    {t1 t2 : List (List FRow)} (h1 : StoredSorted (Loader.init.addAll calls).rows t1)
    (d : Expr) (D : Int → Bool) (hd : ∀ f ∈ (Loader.init.addAll calls).rows.flatten, d f = D f.row.datum)
    (h2 : StoredSorted (filterTables (some d) none none t1) t2)
    {out1 out2 : List RRow} (r1 : RankedOf (rowsIn t1) out1) (r2 : RankedOf (rowsIn t2) out2) {chunks1 chunks2 : List (List RRow)}
    (c1 : chunks1.flatten = out1) (c2 : chunks2.flatten = out2) (t s : Rat) (l : Int) :
    let read := rowsIn (t1.map (readTable (some d)))
    let readR := chunks1.map (readRanked D)
    (tpTotal t s readR l = tpTotal t s chunks2 l ∧ fpTotal t s readR l = fpTotal t s chunks2 l ∧
      fnTotal t s read readR l = fnTotal t s (rowsIn t2) chunks2 l) ∧
    (curveOf t (gtCount read l) l readR).prec = (curveOf t (gtCount (rowsIn t2) l) l chunks2).prec ∧
    (curveOf t (gtCount read l) l readR).score = (curveOf t (gtCount (rowsIn t2) l) l chunks2).score ∧
    averagePrecision (curveOf t (gtCount read l) l readR).prec = averagePrecision (curveOf t (gtCount (rowsIn t2) l) l chunks2).prec ∧
    (∀ g p, cmTotal read t s g p = cmTotal (rowsIn t2) t s g p) ∧
    unmatchedGtTotal read t s l = unmatchedGtTotal (rowsIn t2) t s l ∧ unmatchedPdTotal read t s l = unmatchedPdTotal (rowsIn t2) t s l := by
  intro read readR
  obtain ⟨k1, k2⟩ := loader_ok hH hS
  have hread : read = (rowsIn t1).map (fun tbl => tbl.filter (fun r => D r.datum)) := by
    show rowsIn (t1.map (readTable (some d))) = _
    unfold rowsIn
    rw [List.map_map, List.map_map]
    apply List.map_congr_left
    intro tbl htbl
    unfold readTable
    simp only [Function.comp_apply]
    rw [List.filter_map]
    congr 1
    apply List.filter_congr
    intro f hf
    exact hd f ((stored_mem_iff h1.stored f).1 (List.mem_flatten.2 ⟨tbl, htbl, hf⟩))
  have hdiv := filter_divides h1 d D hd h2
  obtain ⟨_, m1, m2, m3, m4⟩ := C56_detection k1 D (loader_divides h1) hdiv r1 r2 c1 c2 t l
  obtain ⟨m5, m6, m7⟩ := C56_detection_confusion k2 D (loader_divides h1) hdiv t s
  rw [hread]
  exact ⟨m1 s, m2, m3, m4, m5, m6 l, m7 l⟩

theorem singletons_batching : Verif.Cache.IsBatching (fun t : List RRow => t.map (fun x => [x])) := by
  intro t
  constructor
  · induction t with
    | nil => rfl
    | cons a t ih => exact congrArg (List.cons a) ih
  · simp

/-- Memory and files of one row each, and a filter that keeps the second datum. -/
example : ∃ (t1 t2 : List (List FRow)) (d : Expr) (D : Int → Bool), HistoryOk sampleCalls.flatten ∧
    SizesOk (Loader.init.addAll sampleCalls) ∧ StoredSorted (Loader.init.addAll sampleCalls).rows t1 ∧
    StoredSorted (filterTables (some d) none none t1) t2 ∧ (∀ f ∈ (Loader.init.addAll sampleCalls).rows.flatten, d f = D f.row.datum) ∧
    (∃ out, RankedOf (rowsIn t1) out) ∧ (∃ out, RankedOf (rowsIn t2) out) ∧ (loaderRows sampleCalls).length = 5 ∧
    ((loaderRows sampleCalls).filter (fun r => D r.datum)).length = 4 :=
  ⟨_, _, fun f => decide (f.row.datum = 1), fun k => decide (k = 1), sampleCalls_ok.1, sampleCalls_ok.2.2,
    storedSorted_file 1 1 [] _ WOp.rows (Or.inl rfl), storedSorted_mem _, fun _ _ => rfl,
    ⟨_, (rankedOf_file _ (fun t => t.map (fun x => [x])) (singletons_batching) 1 1).choose_spec.2⟩,
    ⟨_, (rankedOf_file _ (fun t => t.map (fun x => [x])) (singletons_batching) 1 1).choose_spec.2⟩,
    by decide +kernel, by decide +kernel⟩

/-- The same sample meets the hypotheses of `C58_division`, `C56_detection` and their confusion-matrix versions. -/
example : RowsOk (loaderRows sampleCalls) ∧ Owned (loaderRows sampleCalls) ∧ ∃ t1 t2 : List (List FRow),
    Divides (loaderRows sampleCalls) (rowsIn t1) ∧ Divides (loaderRows sampleCalls) (rowsIn t2) :=
  ⟨(loader_ok sampleCalls_ok.1 sampleCalls_ok.2.2).1, (loader_ok sampleCalls_ok.1 sampleCalls_ok.2.2).2,
    _, _, loader_divides (storedSorted_file 1 1 [] _ WOp.rows (Or.inl rfl)), loader_divides (storedSorted_mem _)⟩

end Verif.Detection
