import Verif.Detection.Examples
import Verif.Detection.DivisionEndToEnd
import Verif.Cache.PaginateProps

/-! # Lemmas for C59: detection examples -/

namespace Verif.Detection

open Verif.Cache (sortBy SortedBy sortedUnique)

theorem strict_ext {α : Type} [LinearOrder α] {a b : List α} (ha : a.Pairwise (· < ·)) (hb : b.Pairwise (· < ·))
    (h : ∀ x, x ∈ a ↔ x ∈ b) : a = b := by
  have hp : a.Perm b := by
    rw [List.perm_ext_iff_of_nodup (ha.imp (fun h => ne_of_lt h)) (hb.imp (fun h => ne_of_lt h))]
    exact h
  exact hp.eq_of_pairwise (le := (· < ·)) (fun _ _ _ _ h1 h2 => absurd h2 (lt_asymm h1)) ha hb

theorem uniqueRows_strict (l : List (List Int)) : (uniqueRows l).Pairwise (· < ·) := by
  unfold uniqueRows
  have h1 : (l.dedup.insertionSort (· ≤ ·)).Pairwise (· ≤ ·) := List.pairwise_insertionSort _ _
  have h2 : (l.dedup.insertionSort (· ≤ ·)).Nodup := (List.perm_insertionSort _ _).nodup_iff.2 (List.nodup_dedup l)
  exact (h1.and h2).imp (fun h => lt_of_le_of_ne h.1 h.2)

theorem mem_uniqueRows {l : List (List Int)} {k : List Int} : k ∈ uniqueRows l ↔ k ∈ l := by
  unfold uniqueRows
  rw [(List.perm_insertionSort _ _).mem_iff, List.mem_dedup]

theorem uniqueRows_eq {l m : List (List Int)} (hm : m.Pairwise (· < ·)) (h : ∀ k, k ∈ m ↔ k ∈ l) : uniqueRows l = m :=
  strict_ext (uniqueRows_strict l) hm (fun k => mem_uniqueRows.trans (h k).symm)

theorem mapM_some {α β : Type} {f : α → Option β} {g : α → β} {l : List α} (h : ∀ x ∈ l, f x = some (g x)) :
    l.mapM f = some (l.map g) := by
  induction l with
  | nil => rfl
  | cons a l ih =>
    rw [List.mapM_cons, h a (by simp), ih (fun x hx => h x (by simp [hx]))]
    rfl

theorem mapM_congr {α β : Type} {f g : α → Option β} {l : List α} (h : ∀ x ∈ l, f x = g x) : l.mapM f = l.mapM g := by
  induction l with
  | nil => rfl
  | cons a l ih => rw [List.mapM_cons, List.mapM_cons, h a (by simp), ih (fun x hx => h x (by simp [hx]))]

/-! ## The mapping of ids to texts -/

theorem lookup_filterMap (tbl : List FRow) (col : Row → Int) (uid : FRow → Option String) (vs : List Int) (k : Int) :
    (vs.filterMap (fun v => (tbl.find? (fun f => decide (col f.row = v))).map (fun f => (col f.row, uid f)))).lookup k
      = if k ∈ vs then (tbl.find? (fun f => decide (col f.row = k))).map uid else none := by
  induction vs with
  | nil => rfl
  | cons v vs ih =>
    rw [List.filterMap_cons]
    cases hf : tbl.find? (fun f => decide (col f.row = v)) with
    | none =>
      rw [Option.map_none]
      dsimp only
      rw [ih]
      by_cases hk : k = v
      · subst hk
        rw [hf]
        simp
      · simp [hk]
    | some f =>
      have hc : col f.row = v := by
        have := List.find?_some hf
        simpa using this
      rw [Option.map_some]
      dsimp only
      rw [List.lookup_cons, hc]
      by_cases hk : k = v
      · subst hk
        simp [hf]
      · have : (k == v) = false := by simpa using hk
        rw [this, ih]
        simp [hk]

theorem lookup_mapping (tbl : List FRow) (col : Row → Int) (uid : FRow → Option String) {k : Int} (hk : 0 ≤ k) :
    (createMapping tbl col uid).lookup k = (tbl.find? (fun f => decide (col f.row = k))).map uid := by
  unfold createMapping
  rw [lookup_filterMap]
  split
  · rfl
  · rename_i h
    rw [List.mem_filter, (List.perm_insertionSort _ _).mem_iff, List.mem_dedup, List.mem_map] at h
    symm
    rw [Option.map_eq_none_iff, List.find?_eq_none]
    intro f hf hc
    exact h ⟨⟨f, hf, by simpa using hc⟩, by simpa using hk⟩

/-- The text of an id, when all its rows agree. -/
theorem lookup_row {tbl : List FRow} {col : Row → Int} {uid : FRow → Option String} {f : FRow} (hf : f ∈ tbl) (h0 : 0 ≤ col f.row)
    (hu : ∀ f' ∈ tbl, col f'.row = col f.row → uid f' = uid f) : (createMapping tbl col uid).lookup (col f.row) = some (uid f) := by
  rw [lookup_mapping tbl col uid h0]
  cases h : tbl.find? (fun f' => decide (col f'.row = col f.row)) with
  | none =>
    rw [List.find?_eq_none] at h
    exact absurd (h f hf) (by simp)
  | some f' =>
    rw [Option.map_some, hu f' (List.mem_of_find?_eq_some h)]
    have := List.find?_some h
    simpa using this

/-- Other datums do not matter for the text of an id. -/
theorem lookup_datums {tbl : List FRow} (col : Row → Int) (uid : FRow → Option String) (D : Int → Bool) {k : Int} (hk : 0 ≤ k)
    (ho : ∀ f ∈ tbl, col f.row = k → D f.row.datum = true) :
    (createMapping tbl col uid).lookup k = (createMapping (tbl.filter (fun f => D f.row.datum)) col uid).lookup k := by
  rw [lookup_mapping _ _ _ hk, lookup_mapping _ _ _ hk, List.find?_filter]
  congr 1
  apply find_congr
  intro f hf
  by_cases h : col f.row = k
  · simp [h, ho f hf h]
  · simp [h]

/-! ## Datum by datum -/

theorem rows_filter (tbl : List FRow) (D : Int → Bool) :
    (tbl.map FRow.row).filter (onDatums D) = (tbl.filter (fun f => D f.row.datum)).map FRow.row := by
  rw [List.filter_map]
  rfl

/-- The rows of one datum, for a condition that is a matter of the datum. -/
theorem part_filter {rows : List Row} (P : List Row → Row → Bool) (d : Int)
    (h : ∀ r ∈ rows, onDatums (fun x => decide (x = d)) r = true → P rows r = P (rows.filter (onDatums (fun x => decide (x = d)))) r) :
    rows.filter (fun r => P rows r && decide (r.datum = d))
      = (rows.filter (onDatums (fun x => decide (x = d)))).filter
          (fun r => P (rows.filter (onDatums (fun x => decide (x = d)))) r && decide (r.datum = d)) := by
  rw [List.filter_filter]
  apply List.filter_congr
  intro r hr
  by_cases hd : r.datum = d
  · have hD : onDatums (fun x => decide (x = d)) r = true := by
      unfold onDatums
      simpa using hd
    rw [h r hr hD, hD, Bool.and_true]
  · simp [hd]

/-- The examples of a datum only depend on its rows. -/
theorem exampleOf_datum {tbl : List FRow} (ho : Owned (tbl.map FRow.row)) (t s : Rat) {d : Int} (hd : 0 ≤ d) :
    exampleOf tbl t s d = exampleOf (tbl.filter (fun f => decide (f.row.datum = d))) t s d := by
  have hrows := rows_filter tbl (fun x => decide (x = d))
  have hth : ∀ r ∈ tbl.map FRow.row, onDatums (fun x => decide (x = d)) r = true →
      thresholded (tbl.map FRow.row) t s r = thresholded ((tbl.map FRow.row).filter (onDatums (fun x => decide (x = d)))) t s r :=
    fun r hr hD => thresholded_filter _ ho t s hr hD
  have hmis : ∀ r ∈ tbl.map FRow.row, onDatums (fun x => decide (x = d)) r = true →
      pairMisclf (tbl.map FRow.row) t s r = pairMisclf ((tbl.map FRow.row).filter (onDatums (fun x => decide (x = d)))) t s r := by
    intro r hr hD
    unfold pairMisclf
    rw [hth r hr hD]
  have e1 := part_filter (rows := tbl.map FRow.row) (fun rows r => pairTp rows t s r) d (by
    intro r hr hD
    unfold pairTp
    rw [hth r hr hD])
  have e2 := part_filter (rows := tbl.map FRow.row) (fun rows r => pairMisclf rows t s r || pairFp rows t s r) d (by
    intro r hr hD
    rw [hmis r hr hD, pairFp_filter _ ho t s hr hD])
  have e3 := part_filter (rows := tbl.map FRow.row) (fun rows r => pairMisclf rows t s r || pairFn rows t s r) d (by
    intro r hr hD
    rw [hmis r hr hD, pairFn_filter _ ho t s hr hD])
  have hlg : ∀ r ∈ tbl.map FRow.row, r.datum = d → 0 ≤ r.gt →
      (gtMap tbl).lookup r.gt = (gtMap (tbl.filter (fun f => decide (f.row.datum = d)))).lookup r.gt := by
    intro r hr hrd h0
    apply lookup_datums Row.gt FRow.gtUid (fun x => decide (x = d)) h0
    intro f hf he
    have := ho.gts r hr f.row (List.mem_map_of_mem hf) h0 he.symm
    rw [decide_eq_true_eq, ← this, hrd]
  have hlp : ∀ r ∈ tbl.map FRow.row, r.datum = d → 0 ≤ r.pd →
      (pdMap tbl).lookup r.pd = (pdMap (tbl.filter (fun f => decide (f.row.datum = d)))).lookup r.pd := by
    intro r hr hrd h0
    apply lookup_datums Row.pd FRow.pdUid (fun x => decide (x = d)) h0
    intro f hf he
    have := ho.pds r hr f.row (List.mem_map_of_mem hf) h0 he.symm
    rw [decide_eq_true_eq, ← this, hrd]
  have hld : (datumMap tbl).lookup d = (datumMap (tbl.filter (fun f => decide (f.row.datum = d)))).lookup d :=
    lookup_datums Row.datum _ (fun x => decide (x = d)) hd (fun f _ he => by rw [he]; simp)
  have hpos : ∀ r ∈ tbl.map FRow.row, pairMisclf (tbl.map FRow.row) t s r = true → 0 ≤ r.gt ∧ 0 ≤ r.pd := by
    intro r hr h
    unfold pairMisclf at h
    rw [Bool.and_eq_true] at h
    have := thresholded_kept ho hr h.1
    exact ⟨this.2.1.1, this.2.2.1⟩
  unfold exampleOf
  dsimp only at e1 e2 e3 ⊢
  rw [hrows] at e1 e2 e3
  rw [← e1, ← e2, ← e3, hld]
  congr 1
  funext uid
  have m1 : ∀ k ∈ uniqueRows (((tbl.map FRow.row).filter (fun r => pairTp (tbl.map FRow.row) t s r && decide (r.datum = d))).map
      (fun r => [r.datum, r.gt, r.pd, r.gl, r.pl])),
      (do let g ← (gtMap tbl).lookup (k.getD 1 0); let p ← (pdMap tbl).lookup (k.getD 2 0); pure (g, p) : Option _)
        = (do let g ← (gtMap (tbl.filter (fun f => decide (f.row.datum = d)))).lookup (k.getD 1 0)
              let p ← (pdMap (tbl.filter (fun f => decide (f.row.datum = d)))).lookup (k.getD 2 0); pure (g, p)) := by
    intro k hk
    rw [mem_uniqueRows, List.mem_map] at hk
    obtain ⟨r, hr, rfl⟩ := hk
    rw [List.mem_filter, Bool.and_eq_true, decide_eq_true_eq] at hr
    have h := hr.2.1
    unfold pairTp at h
    rw [Bool.and_eq_true] at h
    have hk := thresholded_kept ho hr.1 h.1
    simp only [List.getD_cons_succ, List.getD_cons_zero]
    rw [hlg r hr.1 hr.2.2 hk.2.1.1, hlp r hr.1 hr.2.2 hk.2.2.1]
  rw [mapM_congr m1]
  congr 1
  funext tp
  have m2 : ∀ k ∈ uniqueRows (((tbl.map FRow.row).filter
      (fun r => (pairMisclf (tbl.map FRow.row) t s r || pairFp (tbl.map FRow.row) t s r) && decide (r.datum = d))).map
      (fun r => [r.datum, r.pd, r.pl])),
      (pdMap tbl).lookup (k.getD 1 0) = (pdMap (tbl.filter (fun f => decide (f.row.datum = d)))).lookup (k.getD 1 0) := by
    intro k hk
    rw [mem_uniqueRows, List.mem_map] at hk
    obtain ⟨r, hr, rfl⟩ := hk
    rw [List.mem_filter, Bool.and_eq_true, decide_eq_true_eq, Bool.or_eq_true] at hr
    simp only [List.getD_cons_succ, List.getD_cons_zero]
    apply hlp r hr.1 hr.2.2
    rcases hr.2.1 with h | h
    · exact (hpos r hr.1 h).2
    · exact ((pairFp_spec ho t s hr.1).1 h).1.2
  rw [mapM_congr m2]
  congr 1
  funext fp
  have m3 : ∀ k ∈ uniqueRows (((tbl.map FRow.row).filter
      (fun r => (pairMisclf (tbl.map FRow.row) t s r || pairFn (tbl.map FRow.row) t s r) && decide (r.datum = d))).map
      (fun r => [r.datum, r.gt, r.gl])),
      (gtMap tbl).lookup (k.getD 1 0) = (gtMap (tbl.filter (fun f => decide (f.row.datum = d)))).lookup (k.getD 1 0) := by
    intro k hk
    rw [mem_uniqueRows, List.mem_map] at hk
    obtain ⟨r, hr, rfl⟩ := hk
    rw [List.mem_filter, Bool.and_eq_true, decide_eq_true_eq, Bool.or_eq_true] at hr
    simp only [List.getD_cons_succ, List.getD_cons_zero]
    apply hlg r hr.1 hr.2.2
    rcases hr.2.1 with h | h
    · exact (hpos r hr.1 h).1
    · exact ((pairFn_spec ho t s hr.1).1 h).2
  rw [mapM_congr m3]

end Verif.Detection
