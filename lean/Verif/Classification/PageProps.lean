import Verif.Classification.ExamplesProps
import Verif.Classification.ReportExamples
import Verif.Cache.PaginateProps
import Verif.Cache.WriterProps
import Verif.Cache.SortProps

/-!
# C52: `compute_examples` with `datums`, `limit` and `offset` (`classification/evaluator.py` 697-787)
-/

namespace Verif.Classification

open Verif.Cache (paginate pageLoop keyIndex effLimit sortedUnique)

/-- `Evaluator.compute_examples` with all its arguments (`evaluator.py` 697-787): the tables are those that `paginate_index` yields for the
column `datum_id` (`evaluator.py` 732-738). `datums` is the row filter (`fun _ => true` for `None`). -/
def pagedExamples (tables : List (List Row)) (labels : List String) (ts : List Rat) (hm : Bool) (datums : Row → Bool) (limit : Option Nat)
    (offset : Nat) : Option (List ExamplesMetric) :=
  reportExamples (paginate Row.datum datums limit offset tables) labels ts hm

/-- The numbers of the classifications that satisfy the filter, from number `offset` on (counted among those), at most `limit` of them if
there is a limit other than 0. -/
def pageOf (limit : Option Nat) (offset : Nat) (l : List Nat) : List Nat :=
  match limit with
  | some (n + 1) => (l.drop offset).take (n + 1)
  | _ => l.drop offset

theorem pages_restrict (offset limit : Nat) : ∀ (ts : List (List Row)) (prev : Nat), ∀ p ∈ pageLoop Row.datum offset limit ts prev,
    ∃ T ∈ ts, ∃ E : Int → Bool, p = T.filter (fun r => E r.datum)
  | [], _ => by simp [pageLoop]
  | T :: ts, prev => by
    intro p hp
    unfold pageLoop at hp
    split at hp
    · obtain ⟨T', h1, h2⟩ := pages_restrict offset limit ts prev p hp
      exact ⟨T', by simp [h1], h2⟩
    · dsimp only at hp
      split at hp
      · obtain ⟨T', h1, h2⟩ := pages_restrict offset limit ts _ p hp
        exact ⟨T', by simp [h1], h2⟩
      · split at hp
        · simp at hp
        · generalize hu : sortedUnique (T.map Row.datum) = u at hp
          rcases List.mem_cons.1 hp with rfl | hp
          · exact ⟨T, by simp, fun d => (if prev < offset ∧ prev + u.length > offset then decide (d ≥ u.getD (offset - prev) 0) else true) &&
              (if prev < offset + limit ∧ prev + u.length > offset + limit then decide (d < u.getD (offset + limit - prev) 0) else true), rfl⟩
          · obtain ⟨T', h1, h2⟩ := pages_restrict offset limit ts _ p hp
            exact ⟨T', by simp [h1], h2⟩

/-- Every datum of the first table is before every datum of the second. -/
abbrev Before (a b : List Row) : Prop := ∀ x ∈ a, ∀ y ∈ b, x.datum < y.datum

theorem pages_before (offset limit : Nat) : ∀ (ts : List (List Row)) (prev : Nat), ts.Pairwise Before →
    (pageLoop Row.datum offset limit ts prev).Pairwise Before
  | [], _, _ => by simp [pageLoop]
  | T :: ts, prev, h => by
    rw [List.pairwise_cons] at h
    unfold pageLoop
    split
    · exact pages_before offset limit ts prev h.2
    · dsimp only
      split
      · exact pages_before offset limit ts _ h.2
      · split
        · exact List.Pairwise.nil
        · rw [List.pairwise_cons]
          refine ⟨?_, pages_before offset limit ts _ h.2⟩
          intro p hp x hx y hy
          obtain ⟨T', h1, E, rfl⟩ := pages_restrict offset limit ts _ p hp
          exact h.1 T' h1 x (List.mem_of_mem_filter hx) y (List.mem_of_mem_filter hy)

theorem ascending_ext : ∀ {a b : List Int}, a.Pairwise (· < ·) → b.Pairwise (· < ·) → (∀ x, x ∈ a ↔ x ∈ b) → a = b := by
  intro a b ha hb h
  have hp : a.Perm b := (List.perm_ext_iff_of_nodup (ha.imp (fun h => ne_of_lt h)) (hb.imp (fun h => ne_of_lt h))).2 h
  exact hp.eq_of_pairwise (fun x y _ _ h1 h2 => absurd h1 (by omega)) ha hb

/-- The tables of the cache: they hold the rows, and the classifications in a table come before those in the next. The tables are sorted by
score in `finalize` (`evaluator.py` 291-299), so that their rows are not in the order of adding. -/
structure StoredOf (tables : List (List Row)) (rows : List Row) : Prop where
  perm : tables.flatten.Perm rows
  before : tables.Pairwise Before

theorem StoredOf.fragments {tables : List (List Row)} {rows : List Row} (h : StoredOf tables rows) : FragmentsOf tables rows :=
  ⟨h.perm, h.before.imp (fun hab x hx y hy => ne_of_lt (hab x hx y hy))⟩

section
variable {L : List String} {cs : List Classif} {tables : List (List Row)}

/-- The tables that `paginate_index` yields: parts of the tables, still in order. -/
theorem page_tables (h : StoredOf tables (cs.zipIdx.map (fun x => rowsOf L x.2 x.1)).flatten) {m : Row → Bool} {D : Nat → Bool}
    (hm : ∀ r ∈ (cs.zipIdx.map (fun x => rowsOf L x.2 x.1)).flatten, m r = D r.datum.toNat) (limit : Option Nat) (offset : Nat) :
    (paginate Row.datum m limit offset tables).Pairwise Before ∧
    ∀ p ∈ paginate Row.datum m limit offset tables, ∃ T ∈ tables, ∃ E : Int → Bool, p = T.filter (fun r => E r.datum) := by
  have hmap : tables.map (List.filter m) = tables.map (List.filter (fun r => D r.datum.toNat)) := by
    apply List.map_congr_left
    intro T hT
    apply List.filter_congr
    intro r hr
    exact hm r (h.perm.subset (List.mem_flatten.2 ⟨T, hT, hr⟩))
  have hb : (tables.map (List.filter (fun r : Row => D r.datum.toNat))).Pairwise Before := by
    rw [List.pairwise_map]
    exact h.before.imp (fun hab x hx y hy => hab x (List.mem_of_mem_filter hx) y (List.mem_of_mem_filter hy))
  unfold paginate
  dsimp only
  rw [hmap]
  split
  · refine ⟨hb, ?_⟩
    intro p hp
    obtain ⟨T, hT, rfl⟩ := List.mem_map.1 hp
    exact ⟨T, hT, fun d => D d.toNat, rfl⟩
  · split
    · exact ⟨List.Pairwise.nil, by simp⟩
    · refine ⟨pages_before _ _ _ _ hb, ?_⟩
      intro p hp
      obtain ⟨T', hT', E, rfl⟩ := pages_restrict _ _ _ _ p hp
      obtain ⟨T, hT, rfl⟩ := List.mem_map.1 hT'
      exact ⟨T, hT, fun d => E d && D d.toNat, by rw [List.filter_filter]⟩

/-- A table with all rows of some of the datums of a table. -/
theorem Part.restrict {T : List Row} (h : Part L cs T) (E : Int → Bool) : Part L cs (T.filter (fun r => E r.datum)) := by
  refine ⟨fun r hr => h.sub r (List.mem_of_mem_filter hr), ?_⟩
  intro r hr r' hr' hd
  rw [List.mem_filter] at hr ⊢
  exact ⟨h.full r hr.1 r' hr' hd, by rw [hd]; exact hr.2⟩

theorem keyIndex_before {pages : List (List Row)} (h : pages.Pairwise Before) : (keyIndex Row.datum pages).Pairwise (· < ·) := by
  unfold keyIndex
  rw [List.pairwise_flatMap]
  refine ⟨fun T _ => Verif.Cache.sortedUnique_strict _, h.imp ?_⟩
  intro a b hab u hu v hv
  rw [Verif.Cache.mem_sortedUnique, List.mem_map] at hu hv
  obtain ⟨x, hx, rfl⟩ := hu
  obtain ⟨y, hy, rfl⟩ := hv
  exact hab x hx y hy

theorem mem_index {pages : List (List Row)} {d : Int} : d ∈ keyIndex Row.datum pages ↔ ∃ r ∈ pages.flatten, r.datum = d := by
  unfold keyIndex
  simp only [List.mem_flatMap, Verif.Cache.mem_sortedUnique, List.mem_map, List.mem_flatten]
  constructor
  · rintro ⟨T, hT, r, hr, e⟩
    exact ⟨r, ⟨T, hT, hr⟩, e⟩
  · rintro ⟨r, ⟨T, hT, hr⟩, e⟩
    exact ⟨T, hT, r, hr, e⟩

/-- The index of the filtered tables. -/
theorem index_kept (hcov : ∀ c ∈ cs, Covers L c) (h : StoredOf tables (cs.zipIdx.map (fun x => rowsOf L x.2 x.1)).flatten) {m : Row → Bool}
    {D : Nat → Bool} (hm : ∀ r ∈ (cs.zipIdx.map (fun x => rowsOf L x.2 x.1)).flatten, m r = D r.datum.toNat) :
    keyIndex Row.datum (tables.map (List.filter m)) = ((List.range cs.length).filter D).map (fun k : Nat => (k : Int)) := by
  apply ascending_ext
  · apply keyIndex_before
    rw [List.pairwise_map]
    exact h.before.imp (fun hab x hx y hy => hab x (List.mem_of_mem_filter hx) y (List.mem_of_mem_filter hy))
  · rw [List.pairwise_map]
    exact (List.pairwise_lt_range.filter _).imp (fun h => by omega)
  · intro d
    rw [mem_index, ← List.filter_flatten]
    simp only [List.mem_filter, List.mem_map, List.mem_range, h.perm.mem_iff]
    constructor
    · rintro ⟨r, ⟨hr, hmr⟩, rfl⟩
      rw [hm r hr] at hmr
      obtain ⟨k, c, i, p, s, hk, _, _, rfl⟩ := mem_reach.1 hr
      exact ⟨k, ⟨(List.getElem?_eq_some_iff.1 hk).1, by simpa [rowOf] using hmr⟩, rfl⟩
    · rintro ⟨k, ⟨hk, hD⟩, rfl⟩
      obtain ⟨r, hr⟩ := exists_row (hcov _ (List.getElem_mem hk)) k
      obtain ⟨i, p, s, g1, g2, rfl⟩ := mem_rowsOf.1 hr
      have hmem := mem_reach (L := L) |>.2 ⟨k, _, i, p, s, List.getElem?_eq_getElem hk, g1, g2, rfl⟩
      exact ⟨_, ⟨hmem, by rw [hm _ hmem]; simpa [rowOf] using hD⟩, rfl⟩

/-- The datums of a page. -/
theorem datums_page (hcov : ∀ c ∈ cs, Covers L c) (h : StoredOf tables (cs.zipIdx.map (fun x => rowsOf L x.2 x.1)).flatten) {m : Row → Bool}
    {D : Nat → Bool} (hm : ∀ r ∈ (cs.zipIdx.map (fun x => rowsOf L x.2 x.1)).flatten, m r = D r.datum.toNat) (limit : Option Nat)
    (offset : Nat) : datumsOf (paginate Row.datum m limit offset tables) = pageOf limit offset ((List.range cs.length).filter D) := by
  have hidx := index_kept hcov h hm
  obtain ⟨hbef, hres⟩ := page_tables h hm limit offset
  have hasc : (keyIndex Row.datum (tables.map (List.filter m))).Pairwise (· < ·) := by
    rw [hidx, List.pairwise_map]
    exact (List.pairwise_lt_range.filter _).imp (fun h => by omega)
  have hpage := Verif.Cache.C08_page_content Row.datum m limit offset tables (hasc.imp (fun h => ne_of_lt h))
  have hlen : (keyIndex Row.datum (tables.map (List.filter m))).length ≤ tables.flatten.length :=
    (Verif.Cache.keyIndex_length_le _ _).trans (Verif.Cache.filtered_length_le m tables)
  have hwin : ((keyIndex Row.datum (tables.map (List.filter m))).drop offset).take (effLimit limit tables.flatten.length)
      = (pageOf limit offset ((List.range cs.length).filter D)).map (fun k : Nat => (k : Int)) := by
    have hnone : ((keyIndex Row.datum (tables.map (List.filter m))).drop offset).take tables.flatten.length
        = (((List.range cs.length).filter D).drop offset).map (fun k : Nat => (k : Int)) := by
      rw [List.take_of_length_le (by rw [List.length_drop]; omega), hidx, List.map_drop]
    unfold pageOf effLimit
    rcases limit with _ | _ | n
    · exact hnone
    · exact hnone
    · dsimp only
      rw [hidx, ← List.map_drop, ← List.map_take]
  rw [hwin] at hpage
  have hk : keyIndex Row.datum (paginate Row.datum m limit offset tables)
      = (pageOf limit offset ((List.range cs.length).filter D)).map (fun k : Nat => (k : Int)) := by
    apply ascending_ext (keyIndex_before hbef)
    · rw [← hwin]
      exact (hasc.sublist (List.drop_sublist _ _)).sublist (List.take_sublist _ _)
    · intro d
      rw [mem_index, hpage]
      simp only [List.mem_filter, decide_eq_true_eq]
      constructor
      · rintro ⟨f, ⟨_, hd⟩, rfl⟩
        exact hd
      · intro hd
        have hd' := hd
        rw [← hwin] at hd'
        have hd' := List.mem_of_mem_drop (List.mem_of_mem_take hd')
        rw [mem_index, ← List.filter_flatten] at hd'
        obtain ⟨f, hf, rfl⟩ := hd'
        exact ⟨f, ⟨List.mem_filter.1 hf, hd⟩, rfl⟩
  have huniq : (paginate Row.datum m limit offset tables).flatMap (fun f => uniqueAsc (f.map Row.datum))
      = keyIndex Row.datum (paginate Row.datum m limit offset tables) := by
    unfold keyIndex
    rw [List.flatMap_def, List.flatMap_def]
    congr 1
    apply List.map_congr_left
    intro p _
    apply ascending_ext (uniqueAsc_strict _) (Verif.Cache.sortedUnique_strict _)
    intro d
    rw [mem_uniqueAsc, Verif.Cache.mem_sortedUnique]
  unfold datumsOf
  rw [huniq, hk, List.map_map]
  conv => rhs; rw [← List.map_id (pageOf limit offset _)]
  apply List.map_congr_left
  intro k _
  simp

end

/-- **C52 (pages).** For every history with at most 100000 labels, every storage of the cache, every filter on datums,
limit and offset and every non-empty list of thresholds, `compute_examples` succeeds. It reports, in the order in which they were added, the
classifications that satisfy the filter from number `offset` on, at most `limit` of them if a limit other than 0 is given: for each one metric
per threshold, in the given order and with the given threshold as parameter, with the entry of the classification at the largest of the
thresholds up to there (C18). -/
theorem C52_pages (calls : List (List Classif)) (hv : ∀ c ∈ calls.flatten, c.valid = true)
    (hL : (Loader.init.addAll calls).labels.length ≤ 100000) {tables : List (List Row)}
    (hc : StoredOf tables (Loader.init.addAll calls).rows.flatten) {ts : List Rat} (hts : ts ≠ []) (hm : Bool) {datums : Row → Bool}
    {D : Nat → Bool} (hD : ∀ r ∈ (Loader.init.addAll calls).rows.flatten, datums r = D r.datum.toNat) (limit : Option Nat) (offset : Nat) :
    ∃ blocks : List (List ExamplesMetric),
      pagedExamples tables (Loader.init.addAll calls).labels ts hm datums limit offset = some blocks.flatten ∧
      List.Forall₂ (fun k b => ∃ c, (history calls)[k]? = some c ∧ b.length = ts.length ∧
        ∀ (i : Nat) (t m : Rat), ts[i]? = some t → m ∈ ts.take (i + 1) → (∀ x ∈ ts.take (i + 1), x ≤ m) →
          ∃ e, b[i]? = some ⟨"Examples", e, t, hm⟩ ∧ Entry m hm c e)
        (pageOf limit offset ((List.range (history calls).length).filter D)) blocks := by
  have hcov := covers_reach calls hv
  rw [rows_reach calls] at hc hD
  generalize (Loader.init.addAll calls).labels = L at *
  generalize history calls = cs at *
  have hpart : ∀ f ∈ paginate Row.datum datums limit offset tables, Part L cs f := by
    intro f hf
    obtain ⟨T, hT, E, rfl⟩ := (page_tables hc hD limit offset).2 f hf
    exact (part_of hc.fragments T hT).restrict E
  obtain ⟨R, h1, h2, h3⟩ := examples_parts hL hcov hpart hts hm
  rw [datums_page hcov hc hD limit offset] at h2 h3
  refine ⟨R.map (fun es => (es.zip ts).map (fun x => ⟨"Examples", x.1, x.2, hm⟩)), ?_, ?_⟩
  · unfold pagedExamples reportExamples
    rw [h1, Option.map_some, List.flatMap_def]
  · rw [List.forall₂_iff_get]
    refine ⟨by simpa using h2.symm, ?_⟩
    intro j g1 g2
    obtain ⟨c, es, q1, q2, q3, q4⟩ := h3 j _ (List.getElem?_eq_getElem g1)
    obtain ⟨g3, q2⟩ := List.getElem?_eq_some_iff.1 q2
    simp only [List.get_eq_getElem, List.getElem_map, q2]
    refine ⟨c, q1, by simp [q3], ?_⟩
    intro i t m hi m1 m2
    obtain ⟨e, r1, r2⟩ := q4 i m (List.getElem?_eq_some_iff.1 hi).1 m1 m2
    refine ⟨e, ?_, r2⟩
    rw [List.getElem?_map, List.getElem?_zip_eq_some (z := (e, t)) |>.2 ⟨r1, hi⟩]
    rfl

/-! ## Storage -/

/-- The rows of a history ascend in the number of their classification. -/
theorem reach_ascends (L : List String) (cs : List Classif) : (cs.zipIdx.map (fun x => rowsOf L x.2 x.1)).Pairwise Before := by
  rw [List.pairwise_map]
  have h : (cs.zipIdx.map Prod.snd).Pairwise (· < ·) := by
    rw [List.zipIdx_map_snd]
    exact List.pairwise_lt_range'
  rw [List.pairwise_map] at h
  refine h.imp ?_
  intro x y hxy a ha b hb
  rw [datum_rowsOf a ha, datum_rowsOf b hb]
  exact_mod_cast hxy

theorem stored_groups {L : List String} {cs : List Classif} {groups : List (List (List Row))} {tables : List (List Row)}
    (hg : groups.flatten = (cs.zipIdx.map (fun x => rowsOf L x.2 x.1)).filter (fun p => !p.isEmpty))
    (hf : List.Forall₂ (fun g t => g.flatten.Perm t) groups tables) :
    StoredOf tables (cs.zipIdx.map (fun x => rowsOf L x.2 x.1)).flatten := by
  have hne : ∀ rows : List (List Row), (rows.filter (fun p => !p.isEmpty)).flatten = rows.flatten := by
    intro rows
    induction rows with
    | nil => rfl
    | cons p ps ih => cases p <;> simp [ih]
  have hb := (reach_ascends L cs).filter (fun p => !p.isEmpty)
  rw [← hg, List.pairwise_flatten] at hb
  refine ⟨?_, ?_⟩
  · rw [← hne (cs.zipIdx.map (fun x => rowsOf L x.2 x.1)), ← hg]
    clear hg hb
    induction hf with
    | nil => exact List.Perm.refl _
    | cons h _ ih =>
      rw [List.flatten_cons, List.flatten_cons, List.flatten_append]
      exact h.symm.append ih
  · have hb2 := hb.2
    clear hg hb hne
    induction hf with
    | nil => exact List.Pairwise.nil
    | @cons g t gs ts h hrest ih =>
      rw [List.pairwise_cons] at hb2 ⊢
      refine ⟨?_, ih hb2.2⟩
      intro t' ht' x hx y hy
      obtain ⟨px, hpx, hx'⟩ := List.mem_flatten.1 (h.symm.subset hx)
      obtain ⟨i, hi, rfl⟩ := List.mem_iff_getElem.1 ht'
      have hlen := hrest.length_eq
      have hperm := hrest.get (i := i) (by omega) hi
      simp only [List.get_eq_getElem] at hperm
      obtain ⟨py, hpy, hy'⟩ := List.mem_flatten.1 (hperm.symm.subset hy)
      exact hb2.1 gs[i] (List.getElem_mem _) px hpx py hpy x hx' y hy'

/-- The files of a persistent loader, each sorted in place, are such tables. -/
theorem stored_file (batchSize rowsPerFile : Nat) (ext : List Nat) (calls : List (List Classif)) {K : Type} [LinearOrder K] (key : Row → K) :
    StoredOf ((((Verif.Cache.FileW.create batchSize rowsPerFile true ext).run
      ((Loader.init.addAll calls).rows.map Verif.Cache.WOp.rows ++ [.flush])).closed.map Prod.snd).map (Verif.Cache.sortBy key))
      (Loader.init.addAll calls).rows.flatten := by
  obtain ⟨groups, h1, h2⟩ := Verif.Cache.C04_file_alignment batchSize rowsPerFile ext ((Loader.init.addAll calls).rows.map Verif.Cache.WOp.rows)
  rw [h2, rows_reach calls]
  apply stored_groups (groups := groups)
  · rw [h1, rows_reach calls]
    unfold Verif.Cache.payloads
    rw [List.map_map]
    congr 1
    conv_rhs => rw [← List.map_id (List.map _ _)]
    rfl
  · rw [List.map_map, List.forall₂_map_right_iff]
    apply List.forall₂_same.2
    intro g _
    exact (List.mergeSort_perm _ _).symm

/-- The one table of a loader in memory is such a table. -/
theorem stored_mem (calls : List (List Classif)) {K : Type} [LinearOrder K] (key : Row → K) :
    StoredOf [Verif.Cache.sortBy key (Loader.init.addAll calls).rows.flatten] (Loader.init.addAll calls).rows.flatten :=
  ⟨by rw [List.flatten_singleton]; exact List.mergeSort_perm _ _, List.pairwise_singleton _ _⟩

/-- The sample in two tables, the first not in the order of adding: the second page of one classification among those whose uid is not `d0`. -/
example : StoredOf [(Loader.init.addAll sample).rows.getD 1 [] ++ (Loader.init.addAll sample).rows.getD 0 [],
      (Loader.init.addAll sample).rows.getD 2 []] (Loader.init.addAll sample).rows.flatten ∧
    (∀ r ∈ (Loader.init.addAll sample).rows.flatten, decide (r.uid ≠ "d0") = decide (r.datum.toNat ≠ 0)) ∧
    pageOf (some 1) 1 ((List.range (history sample).length).filter (fun k => decide (k ≠ 0))) = [2] ∧
    (pagedExamples [(Loader.init.addAll sample).rows.getD 1 [] ++ (Loader.init.addAll sample).rows.getD 0 [],
      (Loader.init.addAll sample).rows.getD 2 []] ["cat", "dog", "bird"] [1/2, 3/4] false (fun r => decide (r.uid ≠ "d0")) (some 1) 1).map
      (fun R => R.map (fun m => (m.value.uid, m.threshold))) = some [("d2", 1/2), ("d2", 3/4)] := by
  refine ⟨⟨by decide +kernel, by decide +kernel⟩, by decide +kernel, by decide +kernel, by decide +kernel⟩

end Verif.Classification
