import Verif.Detection.OnlyOrder
import Verif.Detection.OnlyCurve

/-!
# C122 for the confusion matrix
-/

namespace Verif.Detection

open Verif.Cache (sortBy SortedBy StableOf sorted_stable_unique sortBy_sorted sortBy_stable)

/-! ## Greedy matching sees only the pairs -/

/-- What a greedy choice keeps of a sequence of pairs. -/
def pickPairs : List Int → List Int → List (Int × Int) → List (Int × Int)
  | _, _, [] => []
  | ug, up, z :: zs => if z.1 ∈ ug ∨ z.2 ∈ up then pickPairs ug up zs else z :: pickPairs (z.1 :: ug) (z.2 :: up) zs

/-- The pairs of a table, in order. -/
def pairSeq (rows : List Row) : List (Int × Int) := (rows.filter (fun r => decide (IsPair r))).map (fun r => (r.gt, r.pd))

theorem greedy_pick (rows : List Row) (ug up : List Int) :
    ((rows.zip (greedy ug up rows)).filter Prod.snd).map (fun x => (x.1.gt, x.1.pd)) = pickPairs ug up (pairSeq rows) := by
  induction rows generalizing ug up with
  | nil => rfl
  | cons r rs ih =>
    unfold pairSeq at ih ⊢
    rw [greedy_cons, List.filter_cons]
    by_cases hp : IsPair r
    · have h1 : ¬ r.gt < 0 := by have := hp.1; omega
      have h2 : ¬ r.pd < 0 := by have := hp.2; omega
      rw [if_pos (decide_eq_true hp), List.map_cons, pickPairs]
      by_cases hu : r.gt ∈ ug ∨ r.pd ∈ up
      · rw [if_pos hu, if_neg, List.zip_cons_cons, List.filter_cons, if_neg (by simp), ih]
        simp only [h1, h2, decide_false, Bool.false_or]
        rcases hu with hu | hu <;> simp [hu]
      · rw [if_neg hu, if_pos, List.zip_cons_cons, List.filter_cons, if_pos rfl, List.map_cons, ih]
        rw [not_or] at hu
        simp [h1, h2, hu.1, hu.2]
    · have h0 : r.gt < 0 ∨ r.pd < 0 := by
        unfold IsPair at hp
        omega
      have hc : ¬ (!(decide (r.gt < 0) || decide (r.pd < 0) || decide (r.gt ∈ ug) || decide (r.pd ∈ up))) = true := by
        rcases h0 with h | h <;> simp [h]
      rw [if_neg hc, if_neg (c := decide (IsPair r) = true) (by simpa using hp), List.zip_cons_cons, List.filter_cons, if_neg (by simp), ih]

theorem keptPairs_seq {a b : List Row} (h : pairSeq a = pairSeq b) : keptPairs a = keptPairs b := by
  unfold keptPairs
  rw [greedy_pick, greedy_pick, h]

theorem thresholded_seq {a b : List Row} (h : pairSeq a = pairSeq b) (t s : Rat) (r : Row) : thresholded a t s r = thresholded b t s r := by
  unfold thresholded matched
  rw [keptPairs_seq h]

/-! ## Equal pairs in the same order -/

/-- Rank, then place. -/
def lineKey (r : Row) : List Rat ×ₗ List Int := toLex (rankKey r, spot r)

theorem sorted_line {rows : List Row} (h : rows.Pairwise Ahead) :
    (((sortBy rankKey rows).filter (fun r => decide (IsPair r))).map lineKey).Pairwise (· ≤ ·) := by
  rw [List.pairwise_map]
  have h1 := (sortBy_sorted rankKey rows).filter (fun r => decide (IsPair r))
  have h2 := (sorted_ahead h).filter (fun r => decide (IsPair r))
  refine List.Pairwise.imp_of_mem ?_ (h1.and h2)
  rintro a b ha hb ⟨hk, ho⟩
  have pa : IsPair a := by simpa using (List.mem_filter.1 ha).2
  have pb : IsPair b := by simpa using (List.mem_filter.1 hb).2
  unfold lineKey
  rw [Prod.Lex.toLex_le_toLex]
  rcases lt_or_eq_of_le hk with h | h
  · exact Or.inl h
  · right
    refine ⟨h, ?_⟩
    rcases ho pa pb h with h' | h'
    · exact le_of_lt h'
    · exact le_of_eq h'.1

theorem pairs_nodup {rows : List Row} (h : rows.Pairwise Ahead) : ((sortBy rankKey rows).filter (fun r => decide (IsPair r))).Nodup := by
  refine List.Pairwise.imp_of_mem ?_ ((sorted_ahead h).filter (fun r => decide (IsPair r)))
  rintro a b ha hb ho rfl
  have pa : IsPair a := by simpa using (List.mem_filter.1 ha).2
  rcases ho pa pa rfl with h' | h'
  · exact lt_irrefl _ h'
  · exact h'.2 rfl

theorem pairSeq_same {a b : List Row} (ha : a.Pairwise Ahead) (hb : b.Pairwise Ahead) (hab : SameRows a b) (hba : SameRows b a) :
    pairSeq (sortBy rankKey a) = pairSeq (sortBy rankKey b) := by
  have hp : ((sortBy rankKey a).filter (fun r => decide (IsPair r))).Perm ((sortBy rankKey b).filter (fun r => decide (IsPair r))) := by
    rw [List.perm_ext_iff_of_nodup (pairs_nodup ha) (pairs_nodup hb)]
    intro r
    rw [List.mem_filter, List.mem_filter, mem_sortBy, mem_sortBy, decide_eq_true_eq]
    exact ⟨fun h => ⟨hab.pairs r h.2.1 h.2.2 h.1, h.2⟩, fun h => ⟨hba.pairs r h.2.1 h.2.2 h.1, h.2⟩⟩
  have he := (hp.map lineKey).eq_of_pairwise (fun _ _ _ _ h1 h2 => le_antisymm h1 h2) (sorted_line ha) (sorted_line hb)
  have hf := congrArg (List.map (fun k : List Rat ×ₗ List Int => ((ofLex k).2.getD 1 0, (ofLex k).2.getD 2 0))) he
  rw [List.map_map, List.map_map] at hf
  exact hf

/-! ## The counts of the matrix -/

section
variable {a b : List Row} (oa : Owned a) (ob : Owned b) (hs : pairSeq a = pairSeq b) (hab : SameRows a b) (hba : SameRows b a) (t s : Rat)

theorem thresholded_pair (oa : Owned a) {r : Row} (hr : r ∈ a) (h : thresholded a t s r = true) : 0 ≤ r.gt ∧ 0 ≤ r.pd :=
  have := thresholded_kept oa hr h
  ⟨this.2.1.1, this.2.2.1⟩

include oa hs hab in
theorem thresholded_move {c : Row → Int} {r r' : Row} (hd : r'.datum = r.datum) (hc : c r' = c r)
    (h : ∃ x ∈ a, thresholded a t s x = true ∧ x.datum = r.datum ∧ c x = c r) : ∃ x ∈ b, thresholded b t s x = true ∧ x.datum = r'.datum ∧ c x = c r' := by
  obtain ⟨x, hx, h1, h2, h3⟩ := h
  have := thresholded_pair t s oa hx h1
  exact ⟨x, hab.pairs x this.1 this.2 hx, by rw [← thresholded_seq hs]; exact h1, by rw [h2, hd], by rw [h3, hc]⟩

include oa ob hs hab hba

theorem cmCell_same (g p : Int) : cmCell a t s g p = cmCell b t s g p := by
  rw [cmCell_eq_one, cmCell_eq_one]
  apply distinct_perm
  intro v
  simp only [List.mem_map, List.mem_filter]
  constructor
  · rintro ⟨r, ⟨hr, h⟩, rfl⟩
    rw [Bool.and_eq_true] at h
    have hp := thresholded_pair t s oa hr h.2
    exact ⟨r, ⟨hab.pairs r hp.1 hp.2 hr, by rw [Bool.and_eq_true, ← thresholded_seq hs]; exact h⟩, rfl⟩
  · rintro ⟨r, ⟨hr, h⟩, rfl⟩
    rw [Bool.and_eq_true] at h
    have hp := thresholded_pair t s ob hr h.2
    exact ⟨r, ⟨hba.pairs r hp.1 hp.2 hr, by rw [Bool.and_eq_true, thresholded_seq hs]; exact h⟩, rfl⟩

omit oa ob hs hab hba in
theorem unmatchedGt_to (oa : Owned a) (ob : Owned b) (hs : pairSeq a = pairSeq b) (hab : SameRows a b) (hba : SameRows b a) (l : Int) (v : List Int)
    (h : v ∈ (a.filter (fun r => decide (r.gl = l) && pairFn a t s r)).map (fun r => [r.datum, r.gt, r.gl])) :
    v ∈ (b.filter (fun r => decide (r.gl = l) && pairFn b t s r)).map (fun r => [r.datum, r.gt, r.gl]) := by
  simp only [List.mem_map, List.mem_filter, Bool.and_eq_true, decide_eq_true_eq] at h ⊢
  obtain ⟨r, ⟨hr, hl, h⟩, rfl⟩ := h
  rw [pairFn_spec oa t s hr] at h
  obtain ⟨r', hr', e1, e2, e3⟩ := hab.gts r hr h.2
  refine ⟨r', ⟨hr', by rw [e2, hl], (pairFn_spec ob t s hr').2 ⟨?_, by rw [e1]; exact h.2⟩⟩, by rw [e1, e2, e3]⟩
  exact fun hx => h.1 (thresholded_move (c := Row.gt) ob hs.symm hba t s e3.symm e1.symm hx)

omit oa ob hs hab hba in
theorem unmatchedPd_to (oa : Owned a) (ob : Owned b) (hs : pairSeq a = pairSeq b) (hab : SameRows a b) (hba : SameRows b a) (l : Int) (v : List Int)
    (h : v ∈ (a.filter (fun r => decide (r.pl = l) && pairFp a t s r)).map (fun r => [r.datum, r.pd, r.pl])) :
    v ∈ (b.filter (fun r => decide (r.pl = l) && pairFp b t s r)).map (fun r => [r.datum, r.pd, r.pl]) := by
  simp only [List.mem_map, List.mem_filter, Bool.and_eq_true, decide_eq_true_eq] at h ⊢
  obtain ⟨r, ⟨hr, hl, h⟩, rfl⟩ := h
  rw [pairFp_spec oa t s hr] at h
  obtain ⟨r', hr', e1, e4⟩ := hab.pds r hr h.1.2
  obtain ⟨e1, e2, e3⟩ := pdKey_iff.1 e1
  refine ⟨r', ⟨hr', by rw [e3, hl], (pairFp_spec ob t s hr').2 ⟨⟨?_, by rw [e2]; exact h.1.2⟩, ?_⟩⟩, by rw [e1, e2, e3]⟩
  · exact fun hx => h.1.1 (thresholded_move (c := Row.pd) ob hs.symm hba t s e1.symm e2.symm hx)
  · have := h.2
    unfold maskScore at this ⊢
    rw [e4]
    exact this

theorem unmatchedGt_same (l : Int) : unmatchedGt a t s l = unmatchedGt b t s l := by
  rw [unmatchedGt_eq, unmatchedGt_eq]
  exact distinct_perm (fun v => ⟨unmatchedGt_to t s oa ob hs hab hba l v, unmatchedGt_to t s ob oa hs.symm hba hab l v⟩)

theorem unmatchedPd_same (l : Int) : unmatchedPd a t s l = unmatchedPd b t s l := by
  rw [unmatchedPd_eq, unmatchedPd_eq]
  exact distinct_perm (fun v => ⟨unmatchedPd_to t s oa ob hs hab hba l v, unmatchedPd_to t s ob oa hs.symm hba hab l v⟩)

end

/-! ## The filtered cache and the cache of the selected annotations -/

theorem SameRows.sorted {a b : List Row} (h : SameRows a b) : SameRows (sortBy rankKey a) (sortBy rankKey b) where
  pairs := fun r h0 h1 hr => mem_sortBy.2 (h.pairs r h0 h1 (mem_sortBy.1 hr))
  pds := fun r hr h0 => by
    obtain ⟨r', hr', h'⟩ := h.pds r (mem_sortBy.1 hr) h0
    exact ⟨r', mem_sortBy.2 hr', h'⟩
  gts := fun r hr h0 => by
    obtain ⟨r', hr', h'⟩ := h.gts r (mem_sortBy.1 hr) h0
    exact ⟨r', mem_sortBy.2 hr', h'⟩

theorem filtered_owned {calls : List History} {tables : List (List FRow)} (hs : StoredSorted (Loader.init.addAll calls).rows tables)
    (hH : HistoryOk calls.flatten) (hD : DistinctLabels calls.flatten) (hS : SizesOk (Loader.init.addAll calls)) (q : Asks) :
    Owned (filteredRows q tables) := by
  obtain ⟨_, hok⟩ := filtered_tidy hs hH hD hS q
  obtain ⟨_, ho⟩ := loader_ok hH hS
  refine ⟨?_, fun x hx y hy h0 he => (hok.gts x hx y hy h0 he).1, hok.pds⟩
  intro r hr
  obtain ⟨f, hf, hc, _⟩ := filteredRows_from hs hD q hr
  obtain ⟨i1, i2, i3⟩ := ho.ids f.row (List.mem_map_of_mem hf)
  refine ⟨?_, ?_, by rw [hc.datum]; exact i3⟩
  · by_cases h0 : 0 ≤ r.gt
    · rw [(hc.gt h0).1]; exact i1
    · exact Or.inl (hc.form.gt (by omega)).1
  · by_cases h0 : 0 ≤ r.pd
    · rw [(hc.pd h0).1]; exact i2
    · exact Or.inl (hc.form.pd (by omega)).1

section
variable {q : Asks} {calls calls' : List History} {δ : Nat → Nat} {σ τ : Nat → Nat → Nat} (hP : Picks q calls.flatten calls'.flatten δ σ τ)
  (hH : HistoryOk calls.flatten) (hH' : HistoryOk calls'.flatten)

include hP hH hH' in
theorem back_owned (hS : SizesOk (Loader.init.addAll calls)) (hS' : SizesOk (Loader.init.addAll calls')) {F : List Row} (hF : Owned F)
    (hto : SameRows ((loaderRows calls').map (backOf calls calls' δ σ τ)) F) : Owned ((loaderRows calls').map (backOf calls calls' δ σ τ)) := by
  have hR := back_renames hP hH hH' hS hS'
  obtain ⟨_, ho⟩ := loader_ok hH' hS'
  have hmem : ∀ r ∈ (loaderRows calls').map (backOf calls calls' δ σ τ), ∃ r' ∈ loaderRows calls', backOf calls calls' δ σ τ r' = r :=
    fun r hr => List.mem_map.1 hr
  refine ⟨?_, ?_, ?_⟩
  · intro r hr
    have hgt : 0 ≤ r.gt → IdOrMissing r.gt := by
      intro h0
      obtain ⟨r', hr', e1, _⟩ := hto.gts r hr h0
      rw [← e1]
      exact (hF.ids r' hr').1
    have hpd : 0 ≤ r.pd → IdOrMissing r.pd := by
      intro h0
      obtain ⟨r', hr', e1, _⟩ := hto.pds r hr h0
      rw [← (pdKey_iff.1 e1).2.1]
      exact (hF.ids r' hr').2.1
    obtain ⟨r0, hr0, rfl⟩ := hmem r hr
    obtain ⟨i, x, x', _, hx, _, _, d2, h, h'⟩ := back_row hP hH hH' hr0
    refine ⟨?_, ?_, ?_⟩
    · rcases h with h | ⟨g, b, h⟩
      · exact Or.inl h.2.2.1
      · exact hgt (by rw [h.gt]; omega)
    · rcases h' with h | ⟨p, a, v, c, h⟩
      · exact Or.inl h.2.2.1
      · exact hpd (by rw [h.pd]; omega)
    · have hd := hS.datums
      rw [(linv_addAll calls).datums] at hd
      have := getElem?_lt hx
      rw [d2]
      unfold IdOk
      omega
  · intro x hx y hy h0 he
    replace hx := hmem x hx
    obtain ⟨x, hx, rfl⟩ := hx
    replace hy := hmem y hy
    obtain ⟨y, hy, rfl⟩ := hy
    exact (hR.datum x hx y hy).2 (ho.gts x hx y hy ((hR.gt0 x hx).1 h0) ((hR.gt x hx y hy).1 he))
  · intro x hx y hy h0 he
    replace hx := hmem x hx
    obtain ⟨x, hx, rfl⟩ := hx
    replace hy := hmem y hy
    obtain ⟨y, hy, rfl⟩ := hy
    exact (hR.datum x hx y hy).2 (ho.pds x hx y hy ((hR.pd0 x hx).1 h0) ((hR.pd x hx y hy).1 he))

include hP hH hH' in
theorem back_ahead (hS : SizesOk (Loader.init.addAll calls)) (hS' : SizesOk (Loader.init.addAll calls')) (hD' : DistinctLabels calls'.flatten) :
    ((loaderRows calls').map (backOf calls calls' δ σ τ)).Pairwise Ahead := by
  have hR := back_renames hP hH hH' hS hS'
  rw [List.pairwise_map]
  refine List.Pairwise.imp_of_mem ?_ (loader_ahead hH' hD')
  intro a b ha hb h pa pb hk
  have h := h ⟨(hR.gt0 a ha).1 pa.1, (hR.pd0 a ha).1 pa.2⟩ ⟨(hR.gt0 b hb).1 pb.1, (hR.pd0 b hb).1 pb.2⟩ (by rw [← hR.key a, ← hR.key b, hk])
  rw [spot_lt, spot_eq] at h ⊢
  rcases h with h | h
  · left
    obtain ⟨i, x, x', hx', hx, hsel, d1, d2, h1, _⟩ := back_row hP hH hH' ha
    obtain ⟨j, y, y', hy', hy, hsel', f1, f2, h1', _⟩ := back_row hP hH hH' hb
    rcases h with h | ⟨hd, h⟩
    · left
      rw [d2, f2]
      have := hP.up i j (by omega) (getElem?_lt hy')
      omega
    · right
      refine ⟨(hR.datum a ha b hb).2 hd, ?_⟩
      rcases h with h | ⟨hg, h⟩
      · left
        have hij : i = j := by omega
        subst hij
        have hxy : x' = y' := Option.some.inj (hx'.symm.trans hy')
        subst hxy
        rcases h1 with h1 | ⟨g, b, h1⟩ <;> rcases h1' with h1' | ⟨g', b', h1'⟩
        · omega
        · have := pa.1
          omega
        · have := pb.1
          omega
        · rw [h1.gt', h1'.gt'] at h
          rw [h1.gt, h1'.gt]
          have := hsel.gtUp g g' (by omega) (getElem?_lt h1'.gts')
          omega
      · exact Or.inr ⟨(hR.gt a ha b hb).2 hg, hR.up a ha b hb hd h⟩
  · right
    exact ⟨⟨(hR.datum a ha b hb).2 h.1.1, (hR.gt a ha b hb).2 h.1.2.1, (hR.pd a ha b hb).2 h.1.2.2⟩, fun he => h.2 ((hR.pl a ha b hb).1 he)⟩

end

/-- **C122 (matrix).** The confusion matrix of the filtered evaluator is that of an evaluator of the selected datums and annotations: every cell, the
unmatched ground truths and the unmatched predictions of every label. Missing: predictions that list a label twice. -/
theorem C122_matrix_partial (e e' : Built) (hH : HistoryOk e.calls.flatten) (hH' : HistoryOk e'.calls.flatten) (hS : SizesOk (Loader.init.addAll e.calls))
    (hS' : SizesOk (Loader.init.addAll e'.calls)) (hD : DistinctLabels e.calls.flatten) (q : Asks) {δ : Nat → Nat} {σ τ : Nat → Nat → Nat}
    (hP : Picks q e.calls.flatten e'.calls.flatten δ σ τ) {ft : List (List FRow)} (hf : StoredSorted (filterTables q.d q.g q.p e.tables) ft)
    (t s : Rat) (v w : String) :
    cmTotal (rowsIn ft) t s (labelId e.calls v) (labelId e.calls w) = e'.cell t s v w ∧
    unmatchedGtTotal (rowsIn ft) t s (labelId e.calls v) = e'.missed t s v ∧
    unmatchedPdTotal (rowsIn ft) t s (labelId e.calls v) = e'.spurious t s v := by
  have hD' := hP.distinct hD hH hH'
  have hR := back_renames hP hH hH' hS hS'
  have hto := filtered_to hP hH hH' e.stored hD
  have hof := filtered_of hP hH hH' e.stored hD
  have oF := filtered_owned e.stored hH hD hS q
  have oM := back_owned hP hH hH' hS hS' oF hof
  have oL := (loader_ok hH' hS').2
  have hseq := pairSeq_same (filtered_ahead e.stored hH hD q) (back_ahead hP hH hH' hS hS' hD') hto hof
  have oF' : Owned (sortBy rankKey (filteredRows q e.tables)) := oF.subset (fun x hx => mem_sortBy.1 hx)
  have oM' : Owned (sortBy rankKey ((loaderRows e'.calls).map (backOf e.calls e'.calls δ σ τ))) := oM.subset (fun x hx => mem_sortBy.1 hx)
  have oL' : Owned (sortBy rankKey (loaderRows e'.calls)) := oL.subset (fun x hx => mem_sortBy.1 hx)
  have hR' : Renames (backOf e.calls e'.calls δ σ τ) (sortBy rankKey (loaderRows e'.calls)) := hR.subset (fun x hx => mem_sortBy.1 hx)
  have d1 := filtered_divides e.stored q hf
  have d2 := loader_divides e'.stored
  have hgl := fun (v : String) (r : Row) (hr : r ∈ sortBy rankKey (loaderRows e'.calls)) => (back_label hP hH hH' v (mem_sortBy.1 hr)).1
  have hpl := fun (v : String) (r : Row) (hr : r ∈ sortBy rankKey (loaderRows e'.calls)) => (back_label hP hH hH' v (mem_sortBy.1 hr)).2
  have oR : Owned ((sortBy rankKey (loaderRows e'.calls)).map (backOf e.calls e'.calls δ σ τ)) := by
    rw [← sortBy_map hR.key]
    exact oM'
  refine ⟨?_, ?_, ?_⟩
  · unfold Built.cell cmTotal
    rw [additive_total (additive_cm t s _ _) oF d1, additive_total (additive_cm t s _ _) oL d2,
      cmCell_same oF' oM' hseq hto.sorted hof.sorted, sortBy_map hR.key]
    exact hR'.cmCell oL' oR t s (hgl v) (hpl w)
  · unfold Built.missed unmatchedGtTotal
    rw [additive_total (additive_gt t s _) oF d1, additive_total (additive_gt t s _) oL d2,
      unmatchedGt_same oF' oM' hseq hto.sorted hof.sorted, sortBy_map hR.key]
    exact hR'.unmatchedGt oL' oR t s (hgl v)
  · unfold Built.spurious unmatchedPdTotal
    rw [additive_total (additive_pd t s _) oF d1, additive_total (additive_pd t s _) oL d2,
      unmatchedPd_same oF' oM' hseq hto.sorted hof.sorted, sortBy_map hR.key]
    exact hR'.unmatchedPd oL' oR t s (hpl v)

/-- **C122 (matrices of evaluators).** As before, for an evaluator to which only the selected datums and annotations were added, in any calls. -/
theorem C122_only_matrix_partial (e e' : Built) (hH : HistoryOk e.calls.flatten) (hS : SizesOk (Loader.init.addAll e.calls))
    (hS' : SizesOk (Loader.init.addAll e'.calls)) (hD : DistinctLabels e.calls.flatten) (q : Asks) (he : e'.calls.flatten = q.dataset e.calls.flatten)
    {ft : List (List FRow)} (hf : StoredSorted (filterTables q.d q.g q.p e.tables) ft) (t s : Rat) (v w : String) :
    cmTotal (rowsIn ft) t s (labelId e.calls v) (labelId e.calls w) = e'.cell t s v w ∧
    unmatchedGtTotal (rowsIn ft) t s (labelId e.calls v) = e'.missed t s v ∧
    unmatchedPdTotal (rowsIn ft) t s (labelId e.calls v) = e'.spurious t s v := by
  obtain ⟨δ, σ, τ, hP⟩ := picks_dataset q e.calls.flatten
  rw [← he] at hP
  exact C122_matrix_partial e e' hH (by rw [he]; exact dataset_ok q hH) hS hS' hD q hP hf t s v w

end Verif.Detection
