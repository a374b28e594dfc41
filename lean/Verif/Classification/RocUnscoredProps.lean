import Verif.Classification.RocRangeProps

/-! # C109: the area of a label that some of its own datums do not score -/

namespace Verif.Classification

/-- **C109 (unscored ground truths, exact).** As C21, but datums may leave their ground truth label unscored (as `filter` produces them).
The area is the sum over all pairs of a scored positive and a negative (1 if the positive scores higher, 1/2 for a tie), divided not by the number of
those pairs but by `ground truths * (datums scoring the label - ground truths)`, as long as the second factor is not below zero. -/
theorem C109_unscored_exact (calls : List (List Classif)) (hv : ∀ c ∈ calls.flatten, c.valid = true)
    (hnd : ∀ c ∈ history calls, c.preds.Nodup) {l : String}
    (hle : (history calls).countP (fun c => decide (c.gt = l)) ≤ (history calls).countP (fun c => decide (l ∈ c.preds)))
    {top : Rat} (htop : top ∈ positives (history calls) l ++ negatives (history calls) l) (htop0 : top ≠ 0)
    (hmax : ∀ s ∈ positives (history calls) l ++ negatives (history calls) l, s ≤ top)
    {frags : List (List Row)} (hf : FragmentsOf frags (Loader.init.addAll calls).rows.flatten)
    {tables : List (List IRow)} (hperm : tables.flatten.Perm ((Loader.init.addAll calls).rows.flatten.map irow))
    (hsort : tables.flatten.Pairwise (fun a b => b.score ≤ a.score))
    {chunks : List (List RocRow)}
    (hchunks : chunks.flatten = rocCurve (List.range (Loader.init.addAll calls).labels.length)
      (Loader.init.addAll calls).labels.length tables)
    (hcut : NoCut ((Loader.init.addAll calls).labels.idxOf l) chunks) :
    rocauc frags chunks ((Loader.init.addAll calls).labels.idxOf l)
      = ((negatives (history calls) l).map (fun n => ((positives (history calls) l).map
          (fun p => if n < p then 1 else if p = n then (1 / 2 : Rat) else 0)).sum)).sum
        / (((history calls).countP (fun c => decide (c.gt = l)) : Rat)
          * (((history calls).countP (fun c => decide (l ∈ c.preds)) : Rat) - ((history calls).countP (fun c => decide (c.gt = l)) : Rat))) := by
  have hcov := covers_reach calls hv
  set L := (Loader.init.addAll calls).labels with hL
  set cs := history calls with hcs
  have hstream : (only (L.idxOf l) tables.flatten).Perm (streamOf L cs l) := by
    have h1 : (only (L.idxOf l) tables.flatten).Perm
        (only (L.idxOf l) ((Loader.init.addAll calls).rows.flatten.map irow)) := hperm.filter _
    rw [rows_reach calls] at h1
    have h2 := only_reach (L := L) (l := l) cs 0 hcov hnd
    rw [← h2]
    exact h1
  have hscores : ((streamOf L cs l).map IRow.score).Perm (positives cs l ++ negatives cs l) := by
    rw [← stream_pos_scores L cs l, ← stream_neg L cs l, ← List.map_append]
    exact ((List.filter_append_perm _ _).map _).symm
  have hmemsc : ∀ r ∈ only (L.idxOf l) tables.flatten, r.score ∈ positives cs l ++ negatives cs l := by
    intro r hr
    exact hscores.subset (List.mem_map_of_mem (hstream.subset hr))
  have hdesc : Desc (only (L.idxOf l) tables.flatten) := hsort.sublist List.filter_sublist
  have hne : only (L.idxOf l) tables.flatten ≠ [] := by
    intro he
    rw [he] at hstream
    have h0 := hstream.symm.eq_nil
    rw [h0] at hscores
    have h1 := hscores.symm.eq_nil
    rw [h1] at htop
    simp at htop
  obtain ⟨r, rs, hrs⟩ := List.exists_cons_of_ne_nil hne
  have htopr : r.score = top := by
    apply le_antisymm
    · exact hmax _ (hmemsc r (by rw [hrs]; simp))
    · obtain ⟨x, hx, rfl⟩ := List.mem_map.1 (hscores.symm.subset htop)
      have hx' := hstream.symm.subset hx
      rw [hrs] at hx' hdesc
      rcases List.mem_cons.1 hx' with rfl | hx'
      · exact le_refl _
      · exact (List.pairwise_cons.1 hdesc).1 x hx'
  have hlL : l ∈ L := by
    rcases List.mem_append.1 htop with h | h
    · unfold positives at h
      obtain ⟨c, hc, hs⟩ := List.mem_filterMap.1 h
      have := (List.mem_filter.1 hc)
      have h1 := (hcov c this.1).gt
      rw [decide_eq_true_eq] at this
      rw [← this.2]
      exact h1
    · unfold negatives at h
      obtain ⟨c, hc, hs⟩ := List.mem_filterMap.1 h
      have hcm := (List.mem_filter.1 hc).1
      apply (hcov c hcm).preds
      by_contra hcon
      have := lookup_none (l := l) (c.preds.zip c.scores)
        (by rw [List.map_fst_zip (le_of_eq (hcov c hcm).valid)]; exact hcon)
      unfold givenScore at hs
      rw [this] at hs
      exact absurd hs (by simp)
  have hgt : gtCount frags (L.idxOf l) = cs.countP (fun c => decide (c.gt = l)) := by
    rw [gtCount_eq hf, rows_reach calls]
    exact dc_gt_blocks cs 0 hcov
  have hpd : pdCount frags (L.idxOf l) = cs.countP (fun c => decide (l ∈ c.preds)) := by
    rw [pdCount_eq hf, rows_reach calls]
    exact dc_pd_blocks cs 0 hcov
  have hpos : pdCount frags (L.idxOf l) ≠ 0 := by
    rw [hpd]
    intro h0
    have hno := List.countP_eq_zero.1 h0
    have hnone : ∀ c ∈ cs, givenScore c l = none := by
      intro c hc
      refine lookup_none _ ?_
      rw [List.map_fst_zip (le_of_eq (hcov c hc).valid)]
      have := hno c hc
      simpa using this
    rcases List.mem_append.1 htop with h | h
    · obtain ⟨c, hc, hs⟩ := List.mem_filterMap.1 h
      rw [hnone c (List.mem_filter.1 hc).1] at hs
      exact absurd hs (by simp)
    · obtain ⟨c, hc, hs⟩ := List.mem_filterMap.1 h
      rw [hnone c (List.mem_filter.1 hc).1] at hs
      exact absurd hs (by simp)
  unfold rocauc
  rw [area_main (idxOf_lt' hlL) hpos hrs (by rw [htopr]; exact htop0) (hrs ▸ hdesc) hchunks hcut]
  rw [← hrs, mw2_perm hstream, hgt, hpd, ← mw2_stream L]
  have hneg : ((negCount (cs.countP (fun c => decide (l ∈ c.preds))) (cs.countP (fun c => decide (c.gt = l))) : Nat) : Rat)
      = (cs.countP (fun c => decide (l ∈ c.preds)) : Rat) - (cs.countP (fun c => decide (c.gt = l)) : Rat) := by
    unfold negCount
    rw [if_pos hle, Nat.cast_sub hle]
  rw [hneg, div_div]
  congr 1
  ring

/-- Three ground truths `a`, four datums scoring `a`, all four pairs won: 4 / (3 * (4 - 3)), as in `C109_unscored_violation`. -/
example : (∀ c ∈ unscored.flatten, c.valid = true) ∧ (∀ c ∈ history unscored, c.preds.Nodup) ∧
    (history unscored).countP (fun c => decide (c.gt = "a")) = 3 ∧
    (history unscored).countP (fun c => decide ("a" ∈ c.preds)) = 4 ∧
    positives (history unscored) "a" = [9/10, 8/10] ∧ negatives (history unscored) "a" = [1/10, 2/10] := by
  decide +kernel

end Verif.Classification
