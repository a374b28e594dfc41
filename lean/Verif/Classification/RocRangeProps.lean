import Verif.Classification.ReportProps
import Verif.Classification.RocProps
import Verif.Classification.Filter

/-!
# C109: ROCAUC is a number between 0 and 1 (`classification/evaluator.py` 166-259, 524-567, `classification/computation.py` 9-90)
-/

namespace Verif.Classification

/-- Both counts do not fall. -/
def Rising (a b : Nat × Nat) : Prop := a.1 ≤ b.1 ∧ a.2 ≤ b.2

theorem emit_rising (rs : List IRow) : ∀ (fp tp : Nat) (run : Rat),
    ((fp, tp) :: (emit fp tp run rs ++ [(fp + rs.countP (fun r => !r.isMatch), tp + rs.countP IRow.isMatch)])).Pairwise Rising := by
  induction rs with
  | nil =>
    intro fp tp run
    simp [emit, Rising]
  | cons r rs ih =>
    intro fp tp run
    have h := ih (fp + (!r.isMatch).toNat) (tp + r.isMatch.toNat) r.score
    have e1 : fp + (r :: rs).countP (fun r => !r.isMatch) = fp + (!r.isMatch).toNat + rs.countP (fun r => !r.isMatch) := by
      rw [List.countP_cons]
      cases r.isMatch <;> simp [Nat.add_assoc, Nat.add_comm]
    have e2 : tp + (r :: rs).countP IRow.isMatch = tp + r.isMatch.toNat + rs.countP IRow.isMatch := by
      rw [List.countP_cons]
      cases r.isMatch <;> simp [Nat.add_assoc, Nat.add_comm]
    rw [e1, e2, emit, List.append_assoc]
    rw [List.pairwise_cons] at h
    have hall : ∀ x ∈ emit (fp + (!r.isMatch).toNat) (tp + r.isMatch.toNat) r.score rs
        ++ [(fp + (!r.isMatch).toNat + rs.countP (fun r => !r.isMatch), tp + r.isMatch.toNat + rs.countP IRow.isMatch)], Rising (fp, tp) x := by
      intro x hx
      have := h.1 x hx
      unfold Rising at this ⊢
      dsimp only at this ⊢
      omega
    rw [List.pairwise_cons]
    split
    · exact ⟨hall, h.2⟩
    · constructor
      · intro x hx
        rcases List.mem_append.1 hx with hx | hx
        · rw [List.mem_singleton.1 hx]
          exact ⟨le_refl _, le_refl _⟩
        · exact hall x hx
      · exact List.pairwise_cons.2 ⟨hall, h.2⟩

theorem ratio_nonneg (x d : Nat) : 0 ≤ ratio x d := by
  unfold ratio
  split
  · positivity
  · exact le_refl _

theorem ratio_mono {x y : Nat} (h : x ≤ y) (d : Nat) : ratio x d ≤ ratio y d := by
  unfold ratio
  split
  · gcongr
  · exact le_refl _

theorem ratio_le_one {x d : Nat} (h : x ≤ d) : ratio x d ≤ 1 := by
  unfold ratio
  split
  · rename_i hd
    rw [div_le_one (by exact_mod_cast hd)]
    exact_mod_cast h
  · exact zero_le_one

/-- The area over a rising list of points is not negative, and at most the width if no rate exceeds 1. -/
theorem trapezoid_range (N P : Nat) (a : Nat × Nat) (l : List (Nat × Nat)) (h : (a :: l).Pairwise Rising) :
    0 ≤ trapezoid ((a :: l).map (fun x => (ratio x.1 N, ratio x.2 P))) ∧
    ((∀ x ∈ a :: l, x.2 ≤ P) → trapezoid ((a :: l).map (fun x => (ratio x.1 N, ratio x.2 P))) ≤ ratio ((a :: l).getLastD (0, 0)).1 N - ratio a.1 N) := by
  induction l generalizing a with
  | nil =>
    refine ⟨le_refl _, fun _ => ?_⟩
    simp [trapezoid]
  | cons b l ih =>
    rw [List.pairwise_cons] at h
    obtain ⟨h1, h2⟩ := ih b h.2
    have hab := h.1 b (by simp)
    have hx := ratio_mono hab.1 N
    have hw : 0 ≤ ratio b.1 N - ratio a.1 N := by linarith
    have y1 := ratio_nonneg a.2 P
    have y2 := ratio_nonneg b.2 P
    have e : trapezoid ((a :: b :: l).map (fun x => (ratio x.1 N, ratio x.2 P)))
        = (ratio b.1 N - ratio a.1 N) * (ratio b.2 P + ratio a.2 P) / 2 + trapezoid ((b :: l).map (fun x => (ratio x.1 N, ratio x.2 P))) := rfl
    have el : (a :: b :: l).getLastD (0, 0) = (b :: l).getLastD (0, 0) := by
      simp [List.getLastD_eq_getLast?, List.getLast?_cons]
    rw [e, el]
    constructor
    · have := mul_nonneg hw (add_nonneg y2 y1)
      linarith
    · intro hp
      have z1 := ratio_le_one (hp a (by simp))
      have z2 := ratio_le_one (hp b (by simp))
      have := h2 (fun x hx => hp x (List.mem_cons_of_mem _ hx))
      nlinarith

theorem getLastD_mem_cons (x : Nat × Nat) (l : List (Nat × Nat)) (d : Nat × Nat) : (x :: l).getLastD d ∈ x :: l := by
  rw [List.getLastD_eq_getLast?, List.getLast?_eq_getLast_of_ne_nil (by simp)]
  exact List.getLast_mem _

/-- The loop over the tables of the curve. -/
theorem fold_range (l gt pd : Nat) : ∀ (chunks : List (List RocRow)) (acc : Rat × Nat × Nat),
    (acc.2 :: points l chunks.flatten).Pairwise Rising → 0 ≤ acc.1 →
    0 ≤ (chunks.foldl (rocChunk l gt pd) acc).1 ∧
    ((∀ x ∈ acc.2 :: points l chunks.flatten, x.2 ≤ gt) → acc.1 ≤ ratio acc.2.1 (negCount pd gt) →
      ∃ last ∈ acc.2 :: points l chunks.flatten, (chunks.foldl (rocChunk l gt pd) acc).1 ≤ ratio last.1 (negCount pd gt)) := by
  intro chunks
  induction chunks with
  | nil =>
    intro acc _ h0
    exact ⟨h0, fun _ h1 => ⟨acc.2, by simp, h1⟩⟩
  | cons c cs ih =>
    intro acc hp h0
    rw [List.flatten_cons, points_append] at hp ⊢
    rw [List.foldl_cons]
    have hpts : (c.filter (fun r => decide (r.label = l))).map (fun r => (r.fp, r.tp)) = points l c := rfl
    rw [List.pairwise_cons, List.pairwise_append] at hp
    obtain ⟨hp1, hp2, hp3, hp4⟩ := hp
    by_cases hskip : pd = 0 ∨ (points l c).length = 0
    · have e : rocChunk l gt pd acc c = acc := by
        unfold rocChunk
        rw [hpts]
        exact if_pos hskip
      rw [e]
      obtain ⟨a1, a2⟩ := ih acc (List.pairwise_cons.2 ⟨fun x hx => hp1 x (List.mem_append_right _ hx), hp3⟩) h0
      refine ⟨a1, fun hg hw => ?_⟩
      obtain ⟨last, hl, hle⟩ := a2 (fun x hx => hg x (by
        rcases List.mem_cons.1 hx with rfl | hx
        · exact List.mem_cons_self
        · exact List.mem_cons_of_mem _ (List.mem_append_right _ hx))) hw
      refine ⟨last, ?_, hle⟩
      rcases List.mem_cons.1 hl with rfl | hl
      · exact List.mem_cons_self
      · exact List.mem_cons_of_mem _ (List.mem_append_right _ hl)
    · push Not at hskip
      obtain ⟨q, qs, hq⟩ := List.exists_cons_of_ne_nil (l := points l c) (fun e => hskip.2 (by rw [e]; rfl))
      have hlast : ∀ x ∈ points l cs.flatten, Rising ((points l c).getLastD (0, 0)) x := by
        intro x hx
        refine hp4 _ ?_ x hx
        rw [hq]
        exact getLastD_mem_cons _ _ _
      -- the points that are used and the area that is added
      obtain ⟨area, e, b0, b1⟩ : ∃ area, rocChunk l gt pd acc c = (acc.1 + area, (points l c).getLastD (0, 0)) ∧ 0 ≤ area ∧
          ((∀ x ∈ acc.2 :: points l c, x.2 ≤ gt) → area ≤ ratio ((points l c).getLastD (0, 0)).1 (negCount pd gt) - ratio acc.2.1 (negCount pd gt)) := by
        have hge := hp1 q (by rw [hq]; simp)
        by_cases hprev : acc.2.1 > 0 ∨ acc.2.2 > 0
        · obtain ⟨t0, t1⟩ := trapezoid_range (negCount pd gt) gt acc.2 (points l c)
            (List.pairwise_cons.2 ⟨fun x hx => hp1 x (List.mem_append_left _ hx), hp2⟩)
          have el : (acc.2 :: points l c).getLastD (0, 0) = (points l c).getLastD (0, 0) := by
            rw [hq]
            simp [List.getLastD_eq_getLast?, List.getLast?_cons]
          rw [el] at t1
          refine ⟨_, ?_, t0, t1⟩
          unfold rocChunk
          rw [hpts]
          dsimp only
          rw [if_neg (by push Not; exact hskip), if_pos hprev, el, if_neg (by rw [hq]; simp)]
        · obtain ⟨t0, t1⟩ := trapezoid_range (negCount pd gt) gt q qs (hq ▸ hp2)
          rw [← hq] at t0 t1
          have hz : ratio acc.2.1 (negCount pd gt) ≤ ratio q.1 (negCount pd gt) := ratio_mono hge.1 _
          have t1' : (∀ x ∈ acc.2 :: points l c, x.2 ≤ gt) →
              trapezoid ((points l c).map (fun x => (ratio x.1 (negCount pd gt), ratio x.2 gt)))
                ≤ ratio ((points l c).getLastD (0, 0)).1 (negCount pd gt) - ratio acc.2.1 (negCount pd gt) := by
            intro hx
            have := t1 (fun x hx' => hx x (List.mem_cons_of_mem _ hx'))
            linarith
          refine ⟨_, ?_, t0, t1'⟩
          unfold rocChunk
          rw [hpts]
          dsimp only
          rw [if_neg (by push Not; exact hskip), if_neg hprev]
          split
          · rename_i h1
            rw [hq] at h1 ⊢
            cases qs with
            | nil => simp [trapezoid]
            | cons => simp at h1
          · rfl
      rw [e]
      obtain ⟨a1, a2⟩ := ih (acc.1 + area, (points l c).getLastD (0, 0)) (List.pairwise_cons.2 ⟨hlast, hp3⟩) (add_nonneg h0 b0)
      refine ⟨a1, fun hg hw => ?_⟩
      have hmemL : (points l c).getLastD (0, 0) ∈ points l c := by
        rw [hq]
        exact getLastD_mem_cons _ _ _
      obtain ⟨last, hl, hle⟩ := a2 (fun x hx => hg x (by
        rcases List.mem_cons.1 hx with rfl | hx
        · exact List.mem_cons_of_mem _ (List.mem_append_left _ hmemL)
        · exact List.mem_cons_of_mem _ (List.mem_append_right _ hx))) (by
        have := b1 (fun x hx => hg x (by
          rcases List.mem_cons.1 hx with rfl | hx
          · exact List.mem_cons_self
          · exact List.mem_cons_of_mem _ (List.mem_append_left _ hx)))
        dsimp only
        linarith)
      refine ⟨last, ?_, hle⟩
      rcases List.mem_cons.1 hl with rfl | hl
      · exact List.mem_cons_of_mem _ (List.mem_append_left _ hmemL)
      · exact List.mem_cons_of_mem _ (List.mem_append_right _ hl)

/-- The points of a label rise from the origin. -/
theorem curve_rising {n k : Nat} (hk : k < n) (tables : List (List IRow)) :
    ((0, 0) :: points k (rocCurve (List.range n) n tables)).Pairwise Rising ∧
    ∀ x ∈ (0, 0) :: points k (rocCurve (List.range n) n tables),
      x.1 ≤ (only k tables.flatten).countP (fun r => !r.isMatch) ∧ x.2 ≤ (only k tables.flatten).countP IRow.isMatch := by
  have hp := points_curve List.nodup_range (List.mem_range.2 hk) hk tables
  by_cases he : only k tables.flatten = []
  · rw [he] at hp
    rw [hp, he]
    simp [emit]
  · rw [if_neg he] at hp
    rw [hp]
    have h := emit_rising (only k tables.flatten) 0 0 0
    rw [Nat.zero_add, Nat.zero_add] at h
    refine ⟨h, ?_⟩
    rw [← List.cons_append, List.pairwise_append] at h
    intro x hx
    rw [← List.cons_append] at hx
    rcases List.mem_append.1 hx with hx | hx
    · exact h.2.2 x hx _ (List.mem_singleton.2 rfl)
    · rw [List.mem_singleton.1 hx]
      exact ⟨le_refl _, le_refl _⟩

/-- No area is negative, whatever was added. -/
theorem rocauc_nonneg {n k : Nat} (hk : k < n) (frags : List (List Row)) (tables : List (List IRow)) {chunks : List (List RocRow)}
    (hc : chunks.flatten = rocCurve (List.range n) n tables) : 0 ≤ rocauc frags chunks k := by
  have h := (curve_rising hk tables).1
  rw [← hc] at h
  exact (fold_range k (gtCount frags k) (pdCount frags k) chunks (0, 0, 0) h (le_refl _)).1

/-- The area of a label that is scored wherever it is the ground truth is at most 1. -/
theorem rocauc_le_one (calls : List (List Classif)) (hv : ∀ c ∈ calls.flatten, c.valid = true)
    (hnd : ∀ c ∈ history calls, c.preds.Nodup) {l : String} (hlL : l ∈ (Loader.init.addAll calls).labels)
    (hl : ∀ c ∈ history calls, c.gt = l → l ∈ c.preds)
    {frags : List (List Row)} (hf : FragmentsOf frags (Loader.init.addAll calls).rows.flatten)
    {tables : List (List IRow)} (hperm : tables.flatten.Perm ((Loader.init.addAll calls).rows.flatten.map irow))
    {chunks : List (List RocRow)}
    (hchunks : chunks.flatten = rocCurve (List.range (Loader.init.addAll calls).labels.length)
      (Loader.init.addAll calls).labels.length tables) :
    rocauc frags chunks ((Loader.init.addAll calls).labels.idxOf l) ≤ 1 := by
  have hcov := covers_reach calls hv
  set L := (Loader.init.addAll calls).labels with hL
  set cs := history calls with hcs
  have hstream : (only (L.idxOf l) tables.flatten).Perm (streamOf L cs l) := by
    have h1 : (only (L.idxOf l) tables.flatten).Perm
        (only (L.idxOf l) ((Loader.init.addAll calls).rows.flatten.map irow)) := hperm.filter _
    rw [rows_reach calls] at h1
    rw [← only_reach (L := L) (l := l) cs 0 hcov hnd]
    exact h1
  have hgt : gtCount frags (L.idxOf l) = cs.countP (fun c => decide (c.gt = l)) := by
    rw [gtCount_eq hf, rows_reach calls]
    exact dc_gt_blocks cs 0 hcov
  have hpd : pdCount frags (L.idxOf l) = cs.countP (fun c => decide (l ∈ c.preds)) := by
    rw [pdCount_eq hf, rows_reach calls]
    exact dc_pd_blocks cs 0 hcov
  have hP := lengths_pn cs hl (by
    intro c hc hp
    rw [← Option.isSome_iff_exists]
    unfold givenScore
    rw [List.lookup_isSome_iff]
    have : l ∈ (c.preds.zip c.scores).map Prod.fst := by
      rw [List.map_fst_zip (le_of_eq (hcov c hc).valid)]; exact hp
    obtain ⟨x, hx, he⟩ := List.mem_map.1 this
    exact ⟨x, hx, by simp [he]⟩) (by
    intro c hc hp
    exact lookup_none _ (by rw [List.map_fst_zip (le_of_eq (hcov c hc).valid)]; exact hp))
  have cp : (only (L.idxOf l) tables.flatten).countP IRow.isMatch = gtCount frags (L.idxOf l) := by
    rw [hstream.countP_eq, hgt, ← hP.1, ← stream_pos_scores L cs l, List.length_map, List.countP_eq_length_filter]
  have cn : (only (L.idxOf l) tables.flatten).countP (fun r => !r.isMatch)
      = negCount (pdCount frags (L.idxOf l)) (gtCount frags (L.idxOf l)) := by
    rw [hstream.countP_eq, hgt, hpd, ← hP.1, ← hP.2]
    unfold negCount
    rw [if_pos (by omega), Nat.add_sub_cancel_left, ← stream_neg L cs l, List.length_map, List.countP_eq_length_filter]
  obtain ⟨h1, h2⟩ := curve_rising (idxOf_lt' hlL) tables
  rw [← hchunks] at h1 h2
  obtain ⟨last, hlast, hle⟩ := (fold_range (L.idxOf l) (gtCount frags (L.idxOf l)) (pdCount frags (L.idxOf l)) chunks (0, 0, 0) h1 (le_refl _)).2
    (fun x hx => by rw [← cp]; exact (h2 x hx).2) (ratio_nonneg _ _)
  refine le_trans hle (ratio_le_one ?_)
  rw [← cn]
  exact (h2 last hlast).1

theorem sum_range {xs : List Rat} (h0 : ∀ x ∈ xs, 0 ≤ x) : 0 ≤ xs.sum ∧ ((∀ x ∈ xs, x ≤ 1) → xs.sum ≤ xs.length) := by
  induction xs with
  | nil => simp
  | cons a xs ih =>
    obtain ⟨i0, i1⟩ := ih (fun x hx => h0 x (List.mem_cons_of_mem _ hx))
    have ha := h0 a (by simp)
    rw [List.sum_cons, List.length_cons]
    refine ⟨add_nonneg ha i0, fun h1 => ?_⟩
    have := i1 (fun x hx => h1 x (List.mem_cons_of_mem _ hx))
    have := h1 a (by simp)
    push_cast
    linarith

/-- **C109, for predictions that score their ground truth and name no label twice.** For every history of
calls, every cut of its rows into datum-aligned tables, every order and division of the intermediate and
every division of the curve: `compute_rocauc` gives one ROCAUC for every label and one mROCAUC; every value
is at least 0, and at most 1 if every classification gives its labels once each and its ground truth is
among them. Missing for the full statement: classifications for which this is not so
(`C109_unscored_violation`, `C109_filter_violation`, `C109_twice_violation`). -/
theorem C109_range_partial (calls : List (List Classif)) (hv : ∀ c ∈ calls.flatten, c.valid = true)
    {frags : List (List Row)} (hf : FragmentsOf frags (Loader.init.addAll calls).rows.flatten)
    {tables : List (List IRow)} (hperm : tables.flatten.Perm ((Loader.init.addAll calls).rows.flatten.map irow))
    {chunks : List (List RocRow)}
    (hchunks : chunks.flatten = rocCurve (List.range (Loader.init.addAll calls).labels.length)
      (Loader.init.addAll calls).labels.length tables) :
    ∃ rocs mean, reportRocauc frags chunks (evalLabels frags) = some (rocs, mean) ∧
      rocs.map (fun m => m.label) = (evalLabels frags).map (fun lb => some lb.2) ∧ mean.length = 1 ∧
      ∀ m ∈ rocs ++ mean, ∃ x, m.value = .number x ∧ 0 ≤ x ∧
        ((∀ c ∈ history calls, c.preds.Nodup ∧ c.gt ∈ c.preds) → x ≤ 1) := by
  obtain ⟨areas, mean, e, ha, hm⟩ := C64_rocauc calls hv hf chunks
  obtain ⟨h1, h2, _⟩ := evalLabels_reach calls hv hf
  have hlen : areas.length = (evalLabels frags).length := by rw [ha, List.length_map]
  have hL : ∀ lb ∈ evalLabels frags, lb.2 ∈ (Loader.init.addAll calls).labels := fun lb hlb => List.mem_of_getElem? (h2 lb hlb)
  have a0 : ∀ x ∈ areas, 0 ≤ x := by
    intro x hx
    rw [ha] at hx
    obtain ⟨lb, hlb, rfl⟩ := List.mem_map.1 hx
    exact rocauc_nonneg (idxOf_lt' (hL lb hlb)) frags tables hchunks
  have a1 : (∀ c ∈ history calls, c.preds.Nodup ∧ c.gt ∈ c.preds) → ∀ x ∈ areas, x ≤ 1 := by
    intro h x hx
    rw [ha] at hx
    obtain ⟨lb, hlb, rfl⟩ := List.mem_map.1 hx
    exact rocauc_le_one calls hv (fun c hc => (h c hc).1) (hL lb hlb) (fun c hc hg => hg ▸ (h c hc).2) hf hperm hchunks
  refine ⟨_, _, e, ?_, rfl, ?_⟩
  · apply List.ext_getElem
    · simp [hlen]
    · intro i g1 g2
      simp
  · intro m hmem
    rcases List.mem_append.1 hmem with hmem | hmem
    · obtain ⟨i, hi, rfl⟩ := List.mem_iff_getElem.1 hmem
      rw [List.getElem_zipWith]
      exact ⟨_, rfl, a0 _ (List.getElem_mem _), fun h => a1 h _ (List.getElem_mem _)⟩
    · rw [List.mem_singleton.1 hmem]
      obtain ⟨s0, s1⟩ := sum_range a0
      refine ⟨mean, rfl, ?_, fun h => ?_⟩
      · rw [hm]
        positivity
      · have := s1 (a1 h)
        rw [hm]
        rw [hlen] at this
        by_cases hz : ((evalLabels frags).length : Rat) = 0
        · rw [hz, div_zero]
          exact zero_le_one
        · rw [div_le_one (lt_of_le_of_ne (by positivity) (Ne.symm hz))]
          exact this

/-- Three datums of ground truth `a`, of which the last has no score for `a`, and two of ground truth `b`. -/
def unscored : List (List Classif) :=
  [[⟨"d0", "a", ["a", "b"], [9/10, 1/10], ""⟩, ⟨"d1", "a", ["a", "b"], [8/10, 2/10], ""⟩, ⟨"d2", "a", ["b"], [1], ""⟩,
    ⟨"d3", "b", ["a", "b"], [1/10, 9/10], ""⟩, ⟨"d4", "b", ["a", "b"], [2/10, 8/10], ""⟩]]

/-- **C109 fails** when a ground truth label has no score of its own: the number of negatives is taken to be the
number of predictions less the number of ground truths, the false positive rate ends at 2 and the area is 4/3. -/
theorem C109_unscored_violation :
    (∀ c ∈ unscored.flatten, c.valid = true) ∧ (∀ c ∈ history unscored, c.preds.Nodup) ∧
    pipeline unscored (fun r => [r]) "a" = 4 / 3 := by
  decide +kernel

/-- As `unscored`, but every label has a score. -/
def faint : List (List Classif) :=
  [[⟨"d0", "a", ["a", "b"], [9/10, 1/10], ""⟩, ⟨"d1", "a", ["a", "b"], [8/10, 2/10], ""⟩, ⟨"d2", "a", ["a", "b"], [1/20, 19/20], ""⟩,
    ⟨"d3", "b", ["a", "b"], [1/10, 9/10], ""⟩, ⟨"d4", "b", ["a", "b"], [2/10, 8/10], ""⟩]]

/-- **C109 fails** after `filter(predictions=...)` also for data in which every ground truth is scored: the expression "score at least
1/10" removes one score of label `a`, and its area is 4/3. -/
theorem C109_filter_violation :
    (∀ c ∈ faint.flatten, c.valid = true) ∧ (∀ c ∈ history faint, c.preds.Nodup ∧ c.gt ∈ c.preds) ∧
    pipeline faint (fun r => [r]) "a" = 4 / 6 ∧
    (let rows := (filterTables none none (some (fun r => decide (1 / 10 ≤ r.score))) [(Loader.init.addAll faint).rows.flatten]).flatten
     let sorted := (rows.map irow).insertionSort (fun a b => b.score ≤ a.score)
     rocauc [rows] [rocCurve (List.range 2) 2 [sorted]] ((Loader.init.addAll faint).labels.idxOf "a") = 4 / 3) := by
  decide +kernel

/-- A datum that gives its ground truth label twice, and one of ground truth `b`. -/
def twice : List (List Classif) :=
  [[⟨"d0", "a", ["a", "a"], [9/10, 8/10], ""⟩, ⟨"d1", "b", ["a", "b"], [1/10, 9/10], ""⟩]]

/-- **C109 fails** when a prediction names a label twice: both count as true positives of one ground truth. -/
theorem C109_twice_violation :
    (∀ c ∈ twice.flatten, c.valid = true) ∧ (∀ c ∈ history twice, c.gt ∈ c.preds) ∧
    pipeline twice (fun r => [r]) "a" = 2 := by
  decide +kernel

/-- Classifications that meet the condition, with an area strictly between the bounds. -/
example : (∀ c ∈ (tied (1/2)).flatten, c.valid = true) ∧ (∀ c ∈ history (tied (1/2)), c.preds.Nodup ∧ c.gt ∈ c.preds) ∧
    pipeline (tied (1/2)) (fun r => [r]) "a" = 1 / 2 := by
  decide +kernel

end Verif.Classification
