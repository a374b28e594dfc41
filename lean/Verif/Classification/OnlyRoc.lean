import Verif.Classification.OnlyProps
import Verif.Classification.MirrorProps

/-! # C123: the ROC areas of a filtered classification evaluator -/

namespace Verif.Classification

open Verif.Shared

/-- The area of a label from the rows of the label and the two counts. -/
theorem area_stream {L : List String} {cs : List Classif} (hcov : ∀ c ∈ cs, Covers L c) {l : String}
    (hl : ∀ c ∈ cs, c.gt = l → l ∈ c.preds) {top : Rat} (htop : top ∈ positives cs l ++ negatives cs l) (htop0 : top ≠ 0)
    (hmax : ∀ s ∈ positives cs l ++ negatives cs l, s ≤ top) {frags : List (List Row)}
    (hgt : gtCount frags (L.idxOf l) = cs.countP (fun c => decide (c.gt = l)))
    (hpd : pdCount frags (L.idxOf l) = cs.countP (fun c => decide (l ∈ c.preds))) {tables : List (List IRow)}
    (hstream : (only (L.idxOf l) tables.flatten).Perm (streamOf L cs l)) (hsort : tables.flatten.Pairwise (fun a b => b.score ≤ a.score))
    {chunks : List (List RocRow)} (hchunks : chunks.flatten = rocCurve (List.range L.length) L.length tables)
    (hcut : NoCut (L.idxOf l) chunks) : rocauc frags chunks (L.idxOf l) = mannWhitney (positives cs l) (negatives cs l) := by
  have hscores : ((streamOf L cs l).map IRow.score).Perm (positives cs l ++ negatives cs l) := by
    rw [← stream_pos_scores L cs l, ← stream_neg L cs l, ← List.map_append]
    exact ((List.filter_append_perm _ _).map _).symm
  have hmemsc : ∀ r ∈ only (L.idxOf l) tables.flatten, r.score ∈ positives cs l ++ negatives cs l := by
    intro r hr
    exact hscores.subset (List.mem_map_of_mem (hstream.subset hr))
  have hdesc : Desc (only (L.idxOf l) tables.flatten) := hsort.sublist List.filter_sublist
  have hne : only (L.idxOf l) tables.flatten ≠ [] := by
    intro he
    rw [he] at hstream
    have h0 := hstream.symm.eq_nil
    rw [h0] at hscores
    have h1 := hscores.symm.eq_nil
    rw [h1] at htop
    simp at htop
  obtain ⟨r, rs, hrs⟩ := List.exists_cons_of_ne_nil hne
  have htopr : r.score = top := by
    apply le_antisymm
    · exact hmax _ (hmemsc r (by rw [hrs]; simp))
    · obtain ⟨x, hx, rfl⟩ := List.mem_map.1 (hscores.symm.subset htop)
      have hx' := hstream.symm.subset hx
      rw [hrs] at hx' hdesc
      rcases List.mem_cons.1 hx' with rfl | hx'
      · exact le_refl _
      · exact (List.pairwise_cons.1 hdesc).1 x hx'
  have hlL : l ∈ L := by
    rcases List.mem_append.1 htop with h | h
    · unfold positives at h
      obtain ⟨c, hc, hs⟩ := List.mem_filterMap.1 h
      have := (List.mem_filter.1 hc)
      have h1 := (hcov c this.1).gt
      rw [decide_eq_true_eq] at this
      rw [← this.2]
      exact h1
    · unfold negatives at h
      obtain ⟨c, hc, hs⟩ := List.mem_filterMap.1 h
      have hcm := (List.mem_filter.1 hc).1
      apply (hcov c hcm).preds
      by_contra hcon
      have := lookup_none (l := l) (c.preds.zip c.scores)
        (by rw [List.map_fst_zip (le_of_eq (hcov c hcm).valid)]; exact hcon)
      unfold givenScore at hs
      rw [this] at hs
      exact absurd hs (by simp)
  have hscore : ∀ c ∈ cs, l ∈ c.preds → ∃ s, givenScore c l = some s := by
    intro c hc hp
    rw [← Option.isSome_iff_exists]
    unfold givenScore
    rw [List.lookup_isSome_iff]
    have : l ∈ (c.preds.zip c.scores).map Prod.fst := by
      rw [List.map_fst_zip (le_of_eq (hcov c hc).valid)]; exact hp
    obtain ⟨x, hx, he⟩ := List.mem_map.1 this
    exact ⟨x, hx, by simp [he]⟩
  have hnone : ∀ c ∈ cs, l ∉ c.preds → givenScore c l = none := by
    intro c hc hp
    exact lookup_none _ (by rw [List.map_fst_zip (le_of_eq (hcov c hc).valid)]; exact hp)
  have hP := lengths_pn cs hl hscore hnone
  have hpos : pdCount frags (L.idxOf l) ≠ 0 := by
    rw [hpd, ← hP.2, ← List.length_append]
    have := List.length_pos_of_mem htop
    omega
  unfold rocauc
  rw [area_main (idxOf_lt' hlL) hpos hrs (by rw [htopr]; exact htop0) (hrs ▸ hdesc) hchunks hcut]
  rw [← hrs, mw2_perm hstream, hgt, hpd, ← hP.1, ← hP.2]
  unfold mannWhitney
  rw [← mw2_stream L]
  have hneg : negCount ((positives cs l).length + (negatives cs l).length) (positives cs l).length
      = (negatives cs l).length := by
    unfold negCount
    rw [if_pos (by omega)]
    omega
  rw [hneg, div_div]
  congr 1
  ring


/-! ## Blocks with any numbers -/

theorem dc_gt_only {L : List String} {l : String} (xs : List (Classif × Nat)) (hnd : (xs.map Prod.snd).Nodup) (hc : ∀ x ∈ xs, Covers L x.1) :
    dc (xs.map (fun x => rowsOf L x.2 x.1)).flatten (fun r => decide (r.gt ≥ 0)) Row.gt (L.idxOf l : Nat)
      = (xs.map Prod.fst).countP (fun c => decide (c.gt = l)) := by
  induction xs with
  | nil => rfl
  | cons x xs ih =>
    rw [List.map_cons, List.nodup_cons] at hnd
    have h1 := dc_gt_blocks (L := L) (l := l) [x.1] x.2 (fun c hx => by rw [List.mem_singleton.1 hx]; exact hc x (by simp))
    simp only [List.zipIdx_cons, List.zipIdx_nil, List.map_cons, List.map_nil, List.flatten_singleton] at h1
    rw [List.map_cons, List.flatten_cons, dc_append (only_disjoint hnd.1), ih hnd.2 (fun d hd => hc d (by simp [hd])), h1, List.map_cons]
    simp only [List.countP_cons, List.countP_nil]
    omega

theorem dc_pd_only {L : List String} {l : String} (xs : List (Classif × Nat)) (hnd : (xs.map Prod.snd).Nodup) (hc : ∀ x ∈ xs, Covers L x.1) :
    dc (xs.map (fun x => rowsOf L x.2 x.1)).flatten (fun r => decide (r.pd ≥ 0)) Row.pd (L.idxOf l : Nat)
      = (xs.map Prod.fst).countP (fun c => decide (l ∈ c.preds)) := by
  induction xs with
  | nil => rfl
  | cons x xs ih =>
    rw [List.map_cons, List.nodup_cons] at hnd
    have h1 := dc_pd_blocks (L := L) (l := l) [x.1] x.2 (fun c hx => by rw [List.mem_singleton.1 hx]; exact hc x (by simp))
    simp only [List.zipIdx_cons, List.zipIdx_nil, List.map_cons, List.map_nil, List.flatten_singleton] at h1
    rw [List.map_cons, List.flatten_cons, dc_append (only_disjoint hnd.1), ih hnd.2 (fun d hd => hc d (by simp [hd])), h1, List.map_cons]
    simp only [List.countP_cons, List.countP_nil]
    omega

theorem stream_only {L : List String} {l : String} (xs : List (Classif × Nat)) (hc : ∀ x ∈ xs, Covers L x.1)
    (hnd : ∀ x ∈ xs, x.1.preds.Nodup) :
    only (L.idxOf l) ((xs.map (fun x => rowsOf L x.2 x.1)).flatten.map irow) = streamOf L (xs.map Prod.fst) l := by
  induction xs with
  | nil => rfl
  | cons x xs ih =>
    have h1 := only_reach (L := L) (l := l) [x.1] x.2 (fun c hx => by rw [List.mem_singleton.1 hx]; exact hc x (by simp))
      (fun c hx => by rw [List.mem_singleton.1 hx]; exact hnd x (by simp))
    simp only [List.zipIdx_cons, List.zipIdx_nil, List.map_cons, List.map_nil, List.flatten_singleton] at h1
    rw [List.map_cons, List.flatten_cons, List.map_append, only_append, h1, ih (fun d hd => hc d (by simp [hd])) (fun d hd => hnd d (by simp [hd]))]
    unfold streamOf
    rw [← List.filterMap_append]
    rfl

theorem fst_zip_sublist {α β : Type} : ∀ (a : List α) (b : List β), ((a.zip b).map Prod.fst).Sublist a
  | [], _ => by simp
  | _ :: _, [] => by simp
  | x :: a, y :: b => by
    rw [List.zip_cons_cons, List.map_cons]
    exact (fst_zip_sublist a b).cons_cons x

theorem trim_nodup (q : Pick) {c : Classif} (h : c.preds.Nodup) : (q.trim c).preds.Nodup := by
  have h1 : ((c.preds.zip c.scores).map Prod.fst).Nodup := h.sublist (fst_zip_sublist _ _)
  exact h1.sublist (List.filter_sublist.map _)

/-- **C123 (ROC area), partial.** A classification evaluator is filtered; for every label that all selected classifications with that ground
truth still score, the area of the filtered evaluator is that of an evaluator of the selected classifications. The sorted intermediates, their
divisions and those of the curves may differ. Missing: the cases of C21, C22 and C109 in which the area is not the statistic; a condition on
predictions leads to the last of them (`C109_filter_violation`). -/
theorem C123_rocauc_partial (e e' : Built) (q : Pick) {d g p : Option Expr} (hs : (history e'.calls).Perm (q.only (history e.calls)))
    (hq : q.Asked d g p) (hnd : ∀ c ∈ history e.calls, c.preds.Nodup) {frags : List (List Row)}
    (hf : FragmentsOf frags (filterTables d g p e.frags).flatten) {tables : List (List IRow)} (hperm : tables.flatten.Perm (frags.flatten.map irow))
    (hsort : tables.flatten.Pairwise (fun a b => b.score ≤ a.score)) {chunks : List (List RocRow)}
    (hchunks : chunks.flatten = rocCurve (List.range e.labels.length) e.labels.length tables) {l : String} (hcut : NoCut (e.labels.idxOf l) chunks)
    (r : RocRun e'.calls l) (hl : ∀ c ∈ history e'.calls, c.gt = l → l ∈ c.preds) :
    rocauc frags chunks (e.labels.idxOf l) = r.area := by
  have hcov := covers_reach e.calls e.valid
  have hcov' : ∀ c ∈ history e'.calls, Covers e.labels c := fun c hc => only_covers hcov c (hs.mem_iff.1 hc)
  have hnd' : ∀ c ∈ history e'.calls, c.preds.Nodup := by
    intro c hc
    obtain ⟨x, hx, rfl⟩ := List.mem_map.1 (List.mem_filter.1 (hs.mem_iff.1 hc)).1
    exact trim_nodup q (hnd x (List.mem_filter.1 hx).1)
  have hp := filtered_rows e q hq hnd
  set R := ((history e.calls).zipIdx.map (fun x => rowsOf e.labels x.2 x.1)).flatten.filter q.rowOk with hR
  set xs := (history e.calls).zipIdx with hxs
  set K := ((q.kept xs).map (fun x => rowsOf e.labels x.2 x.1)).flatten with hK
  have hf' : FragmentsOf frags R := ⟨hf.perm.trans hp, hf.aligned⟩
  have hmem : ∀ x ∈ xs, x.1 ∈ history e.calls := by
    rintro ⟨c, k⟩ hx
    exact List.mem_of_getElem? (by simpa using List.mem_zipIdx_iff_getElem?.1 hx)
  have hfst : xs.map Prod.fst = history e.calls := List.zipIdx_map_fst 0 _
  have hsnd : (xs.map Prod.snd).Nodup := by
    rw [hxs, List.zipIdx_map_snd 0 _]
    exact List.nodup_range'
  have hkc : ∀ x ∈ q.kept xs, Covers e.labels x.1 := pick_covers (fun x hx => hcov _ (hmem x hx))
  have hks := pick_snd q xs hsnd
  have hkf : (q.kept xs).map Prod.fst = q.only (history e.calls) := by rw [pick_fst, hfst]
  have hu : R.map unflag = K.map unflag := blocks_unflag q e.labels xs
  have hi : R.map irow = K.map irow := by
    have := congrArg (List.map irow) hu
    rw [List.map_map, List.map_map] at this
    exact this
  have hkn : ∀ x ∈ q.kept xs, x.1.preds.Nodup := by
    intro x hx
    obtain ⟨y, hy, rfl⟩ := List.mem_map.1 (List.mem_filter.1 hx).1
    exact trim_nodup q (hnd _ (hmem y (List.mem_filter.1 hy).1))
  rw [area_statistic r hnd' hl]
  refine area_stream hcov' hl r.top_mem r.top_ne r.top_max ?_ ?_ ?_ hsort hchunks hcut
  · rw [gtCount_eq hf', ← dc_map (m := fun r => decide (r.gt ≥ 0)) (m' := fun r => decide (r.gt ≥ 0)) (fun _ => rfl) (fun _ _ => rfl), hu,
      dc_map (m := fun r => decide (r.gt ≥ 0)) (fun _ => rfl) (fun _ _ => rfl), dc_gt_only (q.kept xs) hks hkc, hkf, hs.countP_eq]
  · rw [pdCount_eq hf', ← dc_map (m := fun r => decide (r.pd ≥ 0)) (m' := fun r => decide (r.pd ≥ 0)) (fun _ => rfl) (fun _ _ => rfl), hu,
      dc_map (m := fun r => decide (r.pd ≥ 0)) (fun _ => rfl) (fun _ _ => rfl), dc_pd_only (q.kept xs) hks hkc, hkf, hs.countP_eq]
  · have h1 : (only (e.labels.idxOf l) tables.flatten).Perm (only (e.labels.idxOf l) (R.map irow)) :=
      (hperm.trans (hf'.perm.map irow)).filter _
    rw [hi, stream_only (q.kept xs) hkc hkn, hkf] at h1
    exact h1.trans (hs.symm.filterMap _)

/-- Four datums, the last of which is filtered out, as is the label `c`. -/
def rocMixed : List (List Classif) :=
  [[⟨"d", "a", ["a", "b", "c"], [9/10, 1/20, 1/20], ""⟩, ⟨"e", "b", ["a", "b"], [3/10, 7/10], ""⟩],
   [⟨"f", "a", ["a", "c"], [2/10, 8/10], ""⟩, ⟨"g", "c", ["a", "b"], [95/100, 5/100], ""⟩]]

/-- Everything but the datum `g` and the label `c`. -/
def pickMixed : Pick := ⟨fun u _ => decide (u ≠ "g"), fun _ => true, fun v _ => decide (v ≠ "c")⟩

/-- The condition on datums. -/
def datumMixed : Option Expr := some (fun r => decide (r.uid ≠ "g"))

/-- The condition on predictions. -/
def predMixed : Option Expr := some (fun r => decide (r.pdLabel ≠ "c"))

/-- The hypotheses of `C123_rocauc_partial` hold for it and the label `a`, whose area is 1/2 in the filtered evaluator and 1/4 in the original. -/
example : ∃ (e e' : Built) (frags : List (List Row)) (tables : List (List IRow)) (chunks : List (List RocRow)), e.calls = rocMixed ∧
    (history e'.calls).Perm (pickMixed.only (history e.calls)) ∧ pickMixed.Asked datumMixed none predMixed ∧
    (∀ c ∈ history e.calls, c.preds.Nodup) ∧ FragmentsOf frags (filterTables datumMixed none predMixed e.frags).flatten ∧
    tables.flatten.Perm (frags.flatten.map irow) ∧ tables.flatten.Pairwise (fun a b => b.score ≤ a.score) ∧
    chunks.flatten = rocCurve (List.range e.labels.length) e.labels.length tables ∧ NoCut (e.labels.idxOf "a") chunks ∧
    Nonempty (RocRun e'.calls "a") ∧ (∀ c ∈ history e'.calls, c.gt = "a" → "a" ∈ c.preds) ∧ rocauc frags chunks (e.labels.idxOf "a") = 1 / 2 ∧
    pipeline e.calls (fun r => [r]) "a" = 1 / 4 := by
  let F := filterTables datumMixed none predMixed [(Loader.init.addAll rocMixed).rows.flatten]
  let T : List (List IRow) := [[⟨0, 9/10, true⟩, ⟨1, 7/10, true⟩, ⟨0, 3/10, false⟩, ⟨0, 2/10, true⟩, ⟨1, 1/20, false⟩]]
  have h1 : (history [pickMixed.only (history rocMixed)]).Perm (pickMixed.only (history rocMixed)) := by decide +kernel
  have h2 : ∀ c ∈ history rocMixed, c.preds.Nodup := by decide +kernel
  have h3 : T.flatten.Perm (F.flatten.map irow) := by decide +kernel
  have h4 : T.flatten.Pairwise (fun a b => b.score ≤ a.score) := by decide +kernel
  have h5 : ∀ c ∈ history [pickMixed.only (history rocMixed)], c.gt = "a" → "a" ∈ c.preds := by decide +kernel
  have h6 : rocauc F [rocCurve (List.range (Loader.init.addAll rocMixed).labels.length) (Loader.init.addAll rocMixed).labels.length T]
      ((Loader.init.addAll rocMixed).labels.idxOf "a") = 1 / 2 := by decide +kernel
  have h7 : pipeline rocMixed (fun r => [r]) "a" = 1 / 4 := by decide +kernel
  exact ⟨oneTable rocMixed (by decide +kernel), oneTable [pickMixed.only (history rocMixed)] (by decide +kernel), F, T, [_], rfl, h1,
    ⟨fun _ => rfl, fun _ => rfl, fun _ => rfl⟩, h2, ⟨.refl _, List.pairwise_singleton _ _⟩, h3, h4, List.flatten_singleton, by
      intro a b hab hb
      rcases a with _ | ⟨x, a⟩
      · simp
      · simp only [List.cons_append, List.cons.injEq] at hab
        have := hab.2.symm
        rw [List.append_eq_nil_iff] at this
        exact absurd this.2 hb,
    ⟨oneRun _ "a" (by decide +kernel) (9 / 10) (by decide +kernel) (by norm_num) (by decide +kernel)⟩, h5, h6, h7⟩

end Verif.Classification
