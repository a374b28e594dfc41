import Verif.Classification.RocCutProps

/-! # C21 without a tie at the highest score: every division of the curve -/

namespace Verif.Classification

/-- The first point of the rest of the curve. -/
theorem first_point : ∀ (rs : List IRow) (fp tp : Nat) (run : Rat), ∃ fp' tp' t,
    emit fp tp run rs ++ [(fp + rs.countP (fun r => !r.isMatch), tp + rs.countP IRow.isMatch)] = (fp', tp') :: t ∧
    ((∀ r ∈ rs, r.score = run → r.isMatch = true) → fp' = fp) ∧
    ((∀ r ∈ rs, r.score = run → r.isMatch = false) → tp' = tp) := by
  intro rs
  induction rs with
  | nil => intro fp tp run; exact ⟨fp, tp, [], by simp [emit], fun _ => rfl, fun _ => rfl⟩
  | cons r rs ih =>
    intro fp tp run
    by_cases h : r.score = run
    · obtain ⟨fp', tp', t, e, h1, h2⟩ := ih (fp + (!r.isMatch).toNat) (tp + r.isMatch.toNat) r.score
      refine ⟨fp', tp', t, ?_, ?_, ?_⟩
      · rw [emit, if_pos h, List.nil_append, ← e]
        congr 3
        · rw [List.countP_cons]
          cases r.isMatch <;> simp <;> omega
        · rw [List.countP_cons]
          cases r.isMatch <;> simp <;> omega
      · intro hall
        rw [h1 (fun x hx hs => hall x (List.mem_cons_of_mem _ hx) (hs.trans h)), hall r List.mem_cons_self h]
        rfl
      · intro hall
        rw [h2 (fun x hx hs => hall x (List.mem_cons_of_mem _ hx) (hs.trans h)), hall r List.mem_cons_self h]
        rfl
    · rw [emit, if_neg h]
      exact ⟨fp, tp, _, rfl, fun _ => rfl, fun _ => rfl⟩

/-- **C21, every division.** As `C21_rocauc_partial`, but for every division of the curve into tables, if no positive and negative of the label tie at
its highest score: the area is the Mann-Whitney statistic. -/
theorem C21_untied (calls : List (List Classif)) (hv : ∀ c ∈ calls.flatten, c.valid = true)
    (hnd : ∀ c ∈ history calls, c.preds.Nodup)
    {l : String} (hl : ∀ c ∈ history calls, c.gt = l → l ∈ c.preds)
    {top : Rat} (htop : top ∈ positives (history calls) l ++ negatives (history calls) l) (htop0 : top ≠ 0)
    (hmax : ∀ s ∈ positives (history calls) l ++ negatives (history calls) l, s ≤ top)
    (htie : top ∉ positives (history calls) l ∨ top ∉ negatives (history calls) l)
    {frags : List (List Row)} (hf : FragmentsOf frags (Loader.init.addAll calls).rows.flatten)
    {tables : List (List IRow)} (hperm : tables.flatten.Perm ((Loader.init.addAll calls).rows.flatten.map irow))
    (hsort : tables.flatten.Pairwise (fun a b => b.score ≤ a.score))
    {chunks : List (List RocRow)}
    (hchunks : chunks.flatten = rocCurve (List.range (Loader.init.addAll calls).labels.length)
      (Loader.init.addAll calls).labels.length tables) :
    rocauc frags chunks ((Loader.init.addAll calls).labels.idxOf l)
      = mannWhitney (positives (history calls) l) (negatives (history calls) l) := by
  have hone := C21_rocauc_partial calls hv hnd hl htop htop0 hmax hf hperm hsort (chunks := [chunks.flatten]) (by simpa using hchunks) (by
    intro a b hab hb
    rcases a with _ | ⟨x, xs⟩
    · simp
    · rw [List.cons_append, List.cons.injEq] at hab
      exact absurd (List.append_eq_nil_iff.1 hab.2.symm).2 hb)
  have hcov := covers_reach calls hv
  set L := (Loader.init.addAll calls).labels with hL
  set cs := history calls with hcs
  have hstream : (only (L.idxOf l) tables.flatten).Perm (streamOf L cs l) := by
    have h1 : (only (L.idxOf l) tables.flatten).Perm
        (only (L.idxOf l) ((Loader.init.addAll calls).rows.flatten.map irow)) := hperm.filter _
    rw [rows_reach calls] at h1
    have h2 := only_reach (L := L) (l := l) cs 0 hcov hnd
    rw [← h2]
    exact h1
  have hscores : ((streamOf L cs l).map IRow.score).Perm (positives cs l ++ negatives cs l) := by
    rw [← stream_pos_scores L cs l, ← stream_neg L cs l, ← List.map_append]
    exact ((List.filter_append_perm _ _).map _).symm
  have hmemsc : ∀ r ∈ only (L.idxOf l) tables.flatten, r.score ∈ positives cs l ++ negatives cs l := by
    intro r hr
    exact hscores.subset (List.mem_map_of_mem (hstream.subset hr))
  have hdesc : Desc (only (L.idxOf l) tables.flatten) := hsort.sublist List.filter_sublist
  have hne : only (L.idxOf l) tables.flatten ≠ [] := by
    intro he
    rw [he] at hstream
    have h0 := hstream.symm.eq_nil
    rw [h0] at hscores
    have h1 := hscores.symm.eq_nil
    rw [h1] at htop
    simp at htop
  obtain ⟨r, rs, hrs⟩ := List.exists_cons_of_ne_nil hne
  have htopr : r.score = top := by
    apply le_antisymm
    · exact hmax _ (hmemsc r (by rw [hrs]; simp))
    · obtain ⟨x, hx, rfl⟩ := List.mem_map.1 (hscores.symm.subset htop)
      have hx' := hstream.symm.subset hx
      rw [hrs] at hx' hdesc
      rcases List.mem_cons.1 hx' with rfl | hx'
      · exact le_refl _
      · exact (List.pairwise_cons.1 hdesc).1 x hx'
  have hlL : l ∈ L := by
    rcases List.mem_append.1 htop with h | h
    · unfold positives at h
      obtain ⟨c, hc, hs⟩ := List.mem_filterMap.1 h
      have := (List.mem_filter.1 hc)
      have h1 := (hcov c this.1).gt
      rw [decide_eq_true_eq] at this
      rw [← this.2]
      exact h1
    · unfold negatives at h
      obtain ⟨c, hc, hs⟩ := List.mem_filterMap.1 h
      have hcm := (List.mem_filter.1 hc).1
      apply (hcov c hcm).preds
      by_contra hcon
      have := lookup_none (l := l) (c.preds.zip c.scores)
        (by rw [List.map_fst_zip (le_of_eq (hcov c hcm).valid)]; exact hcon)
      unfold givenScore at hs
      rw [this] at hs
      exact absurd hs (by simp)
  have hgt : gtCount frags (L.idxOf l) = cs.countP (fun c => decide (c.gt = l)) := by
    rw [gtCount_eq hf, rows_reach calls]
    exact dc_gt_blocks cs 0 hcov
  have hpd : pdCount frags (L.idxOf l) = cs.countP (fun c => decide (l ∈ c.preds)) := by
    rw [pdCount_eq hf, rows_reach calls]
    exact dc_pd_blocks cs 0 hcov
  have hpos : pdCount frags (L.idxOf l) ≠ 0 := by
    rw [hpd]
    intro h0
    have hno := List.countP_eq_zero.1 h0
    have hnone : ∀ c ∈ cs, givenScore c l = none := by
      intro c hc
      refine lookup_none _ ?_
      rw [List.map_fst_zip (le_of_eq (hcov c hc).valid)]
      have := hno c hc
      simpa using this
    rcases List.mem_append.1 htop with h | h
    · obtain ⟨c, hc, hs⟩ := List.mem_filterMap.1 h
      rw [hnone c (List.mem_filter.1 hc).1] at hs
      exact absurd hs (by simp)
    · obtain ⟨c, hc, hs⟩ := List.mem_filterMap.1 h
      rw [hnone c (List.mem_filter.1 hc).1] at hs
      exact absurd hs (by simp)
  have hpts := points_curve List.nodup_range (List.mem_range.2 (idxOf_lt' hlL)) (idxOf_lt' hlL) tables
  rw [hrs, if_neg (by simp)] at hpts
  obtain ⟨t', ht', hne'⟩ := curve_form (rs := rs) (r := r) (by rw [htopr]; exact htop0)
  obtain ⟨fp, tp, t, ht, hfp, htp⟩ := first_point rs (0 + (!r.isMatch).toNat) (0 + r.isMatch.toNat) r.score
  have hform : emit 0 0 0 (r :: rs) ++ [((r :: rs).countP (fun r => !r.isMatch), (r :: rs).countP IRow.isMatch)]
      = (0, 0) :: (fp, tp) :: t := by
    rw [← ht, emit, if_neg (by rw [htopr]; exact htop0), List.singleton_append, List.cons_append]
    congr 4
    · rw [List.countP_cons]
      cases r.isMatch <;> simp <;> omega
    · rw [List.countP_cons]
      cases r.isMatch <;> simp <;> omega
  rw [hform] at ht' hpts
  rw [List.cons.injEq] at ht'
  have hrows : chunks.flatten.filter (fun x => decide (x.label = L.idxOf l))
      = ⟨L.idxOf l, 0, 0⟩ :: ⟨L.idxOf l, fp, tp⟩ :: t.map (fun x => ⟨L.idxOf l, x.1, x.2⟩) := by
    have back : ∀ rows : List RocRow, rows.filter (fun x => decide (x.label = L.idxOf l))
        = (points (L.idxOf l) rows).map (fun x => ⟨L.idxOf l, x.1, x.2⟩) := by
      intro rows
      unfold points
      rw [List.map_map]
      conv_lhs => rw [← List.map_id (rows.filter _)]
      apply List.map_congr_left
      intro x hx
      have := (List.mem_filter.1 hx).2
      rw [decide_eq_true_eq] at this
      rw [← this]
      rfl
    rw [back, hchunks, hpts]
    rfl
  have hzero : (fp : Rat) * tp = 0 := by
    rcases htie with h | h
    · have hall : ∀ x ∈ r :: rs, x.score = r.score → x.isMatch = false := by
        intro x hx hs
        by_contra hm
        apply h
        rw [← stream_pos_scores L cs l]
        refine List.mem_map.2 ⟨x, List.mem_filter.2 ⟨hstream.subset (hrs ▸ hx), by simpa using hm⟩, hs.trans htopr⟩
      rw [htp (fun x hx => hall x (List.mem_cons_of_mem _ hx)), hall r List.mem_cons_self rfl]
      simp
    · have hall : ∀ x ∈ r :: rs, x.score = r.score → x.isMatch = true := by
        intro x hx hs
        by_contra hm
        apply h
        rw [← stream_neg L cs l]
        refine List.mem_map.2 ⟨x, List.mem_filter.2 ⟨hstream.subset (hrs ▸ hx), by simpa using hm⟩, hs.trans htopr⟩
      rw [hfp (fun x hx => hall x (List.mem_cons_of_mem _ hx)), hall r List.mem_cons_self rfl]
      simp
  rw [C22_splits_exact frags (L.idxOf l) hrows (hne' _ (by rw [← ht'.2]; simp)) (by
    intro x hx
    obtain ⟨y, hy, rfl⟩ := List.mem_map.1 hx
    exact hne' y (by rw [← ht'.2]; exact List.mem_cons_of_mem _ hy)) hpos, hone, hzero]
  simp

/-- **C21, either condition.** The area is the statistic if the curve is not cut right after the first row of the label, or no positive and negative
tie at its highest score. -/
theorem C21_either_partial (calls : List (List Classif)) (hv : ∀ c ∈ calls.flatten, c.valid = true)
    (hnd : ∀ c ∈ history calls, c.preds.Nodup)
    {l : String} (hl : ∀ c ∈ history calls, c.gt = l → l ∈ c.preds)
    {top : Rat} (htop : top ∈ positives (history calls) l ++ negatives (history calls) l) (htop0 : top ≠ 0)
    (hmax : ∀ s ∈ positives (history calls) l ++ negatives (history calls) l, s ≤ top)
    {frags : List (List Row)} (hf : FragmentsOf frags (Loader.init.addAll calls).rows.flatten)
    {tables : List (List IRow)} (hperm : tables.flatten.Perm ((Loader.init.addAll calls).rows.flatten.map irow))
    (hsort : tables.flatten.Pairwise (fun a b => b.score ≤ a.score))
    {chunks : List (List RocRow)}
    (hchunks : chunks.flatten = rocCurve (List.range (Loader.init.addAll calls).labels.length)
      (Loader.init.addAll calls).labels.length tables)
    (hcut : NoCut ((Loader.init.addAll calls).labels.idxOf l) chunks ∨
      top ∉ positives (history calls) l ∨ top ∉ negatives (history calls) l) :
    rocauc frags chunks ((Loader.init.addAll calls).labels.idxOf l)
      = mannWhitney (positives (history calls) l) (negatives (history calls) l) := by
  rcases hcut with h | h
  · exact C21_rocauc_partial calls hv hnd hl htop htop0 hmax hf hperm hsort hchunks h
  · exact C21_untied calls hv hnd hl htop htop0 hmax h hf hperm hsort hchunks

example : (∀ c ∈ sample.flatten, c.valid = true) ∧ (∀ c ∈ history sample, c.preds.Nodup) ∧
    (∀ c ∈ history sample, c.gt = "dog" → "dog" ∈ c.preds) ∧
    positives (history sample) "dog" = [1/10, 0] ∧ negatives (history sample) "dog" = [1/2] ∧
    (1 / 2 : Rat) ∉ positives (history sample) "dog" := by
  decide +kernel

end Verif.Classification
