import Verif.Float.Roc

/-! # C74: the range and the error of ROCAUC in double precision -/

namespace Verif.Float

open Verif.Shared Verif.Classification

theorem emit_climbs (rs : List IRow) : ∀ (fp tp : Nat) (run : Rat),
    (∀ x ∈ emit fp tp run rs, fp ≤ x.1 ∧ tp ≤ x.2 ∧ x.1 ≤ fp + rs.countP (fun r => !r.isMatch) ∧ x.2 ≤ tp + rs.countP IRow.isMatch) ∧
    (emit fp tp run rs).Pairwise (fun a b => a.1 ≤ b.1 ∧ a.2 ≤ b.2) ∧ (emit fp tp run rs).length ≤ rs.length := by
  induction rs with
  | nil => intro fp tp run; simp [emit]
  | cons r rs ih =>
    intro fp tp run
    obtain ⟨h1, h2, h3⟩ := ih (fp + (!r.isMatch).toNat) (tp + r.isMatch.toNat) r.score
    have c1 : (r :: rs).countP (fun r => !r.isMatch) = rs.countP (fun r => !r.isMatch) + (!r.isMatch).toNat := by
      rw [List.countP_cons]; cases r.isMatch <;> rfl
    have c2 : (r :: rs).countP IRow.isMatch = rs.countP IRow.isMatch + r.isMatch.toNat := by
      rw [List.countP_cons]; cases r.isMatch <;> rfl
    rw [emit, c1, c2]
    have hall : ∀ x ∈ emit (fp + (!r.isMatch).toNat) (tp + r.isMatch.toNat) r.score rs,
        fp ≤ x.1 ∧ tp ≤ x.2 ∧ x.1 ≤ fp + (rs.countP (fun r => !r.isMatch) + (!r.isMatch).toNat) ∧
          x.2 ≤ tp + (rs.countP IRow.isMatch + r.isMatch.toNat) := by
      intro x hx
      have := h1 x hx
      omega
    split
    · rw [List.nil_append]
      exact ⟨hall, h2, by rw [List.length_cons]; omega⟩
    · rw [List.singleton_append]
      refine ⟨?_, List.pairwise_cons.2 ⟨fun x hx => ⟨(hall x hx).1, (hall x hx).2.1⟩, h2⟩, by simpa using h3⟩
      intro x hx
      rcases List.mem_cons.1 hx with rfl | hx
      · exact ⟨le_refl _, le_refl _, Nat.le_add_right _ _, Nat.le_add_right _ _⟩
      · exact hall x hx

/-- The curve of a label climbs to the totals. -/
theorem curve_climbs {n k : Nat} (hk : k < n) (tables : List (List IRow)) :
    Climbing ((only k tables.flatten).countP (fun r => !r.isMatch)) ((only k tables.flatten).countP IRow.isMatch)
      (points k (rocCurve (List.range n) n tables)) ∧
    (points k (rocCurve (List.range n) n tables)).length ≤ (only k tables.flatten).length + 1 := by
  rw [points_curve List.nodup_range (List.mem_range.2 hk) hk]
  obtain ⟨h1, h2, h3⟩ := emit_climbs (only k tables.flatten) 0 0 0
  generalize only k tables.flatten = s at *
  refine ⟨⟨?_, ?_⟩, ?_⟩
  · intro x hx
    rcases List.mem_append.1 hx with hx | hx
    · have := h1 x hx; omega
    · split at hx
      · simp at hx
      · rw [List.mem_singleton.1 hx]; simp
  · rw [List.pairwise_append]
    refine ⟨h2, by split <;> simp, ?_⟩
    intro a ha b hb
    split at hb
    · simp at hb
    · rw [List.mem_singleton.1 hb]
      have := h1 a ha
      dsimp only
      omega
  · rw [List.length_append]
    split
    · simp; omega
    · simp; omega

/-- **C74, range and error.** For every history of `add_data` calls with distinct predicted labels per classification, every label scored
by all datums that have it as ground truth, every cut of the rows into tables and of the curve into chunks, and every order in which the
summands of `np.trapezoid` are added: the area computed in double precision is nonnegative and exceeds 1 by at most the accumulated
rounding of one addition per curve point; with `n` datums that score the label (`n + 1` up to `2 ^ 52`) it differs from the area in exact
arithmetic by at most `(n + 1) / 2 ^ 50`.
Missing for the full statement: the area can exceed 1 (`C74_above_violation`). -/
theorem C74_range_partial (calls : List (List Classif)) (hv : ∀ c ∈ calls.flatten, c.valid = true)
    (hnd : ∀ c ∈ history calls, c.preds.Nodup)
    {l : String} (hl : ∀ c ∈ history calls, c.gt = l → l ∈ c.preds) (hlL : l ∈ (Loader.init.addAll calls).labels)
    {frags : List (List Row)} (hf : FragmentsOf frags (Loader.init.addAll calls).rows.flatten)
    {tables : List (List IRow)} (hperm : tables.flatten.Perm ((Loader.init.addAll calls).rows.flatten.map irow))
    {chunks : List (List RocRow)}
    (hchunks : chunks.flatten = rocCurve (List.range (Loader.init.addAll calls).labels.length)
      (Loader.init.addAll calls).labels.length tables)
    {sum : List Rat → Rat} (hsum : ∀ xs, Sums xs (sum xs)) {n : Nat}
    (hn : n = (positives (history calls) l).length + (negatives (history calls) l).length) :
    0 ≤ flRocauc sum frags chunks ((Loader.init.addAll calls).labels.idxOf l) ∧
    flRocauc sum frags chunks ((Loader.init.addAll calls).labels.idxOf l) ≤ (1 + 1 / 2 ^ 53) ^ (n + 1) ∧
    (n + 1 ≤ 2 ^ 52 →
      |flRocauc sum frags chunks ((Loader.init.addAll calls).labels.idxOf l)
        - rocauc frags chunks ((Loader.init.addAll calls).labels.idxOf l)| ≤ ((n + 1 : Nat) : Rat) / 2 ^ 50) := by
  have u0 : (0 : Rat) < 1 / 2 ^ 53 := by positivity
  have hcov := covers_reach calls hv
  set L := (Loader.init.addAll calls).labels with hL
  set cs := history calls with hcs
  have hstream : (only (L.idxOf l) tables.flatten).Perm (streamOf L cs l) := by
    have h1 : (only (L.idxOf l) tables.flatten).Perm
        (only (L.idxOf l) ((Loader.init.addAll calls).rows.flatten.map irow)) := hperm.filter _
    rw [rows_reach calls] at h1
    have h2 := only_reach (L := L) (l := l) cs 0 hcov hnd
    rw [← h2]
    exact h1
  have hgt : gtCount frags (L.idxOf l) = cs.countP (fun c => decide (c.gt = l)) := by
    rw [gtCount_eq hf, rows_reach calls]
    exact dc_gt_blocks cs 0 hcov
  have hpd : pdCount frags (L.idxOf l) = cs.countP (fun c => decide (l ∈ c.preds)) := by
    rw [pdCount_eq hf, rows_reach calls]
    exact dc_pd_blocks cs 0 hcov
  have hscore : ∀ c ∈ cs, l ∈ c.preds → ∃ s, givenScore c l = some s := by
    intro c hc hp
    rw [← Option.isSome_iff_exists]
    unfold givenScore
    rw [List.lookup_isSome_iff]
    have : l ∈ (c.preds.zip c.scores).map Prod.fst := by
      rw [List.map_fst_zip (le_of_eq (hcov c hc).valid)]; exact hp
    obtain ⟨x, hx, he⟩ := List.mem_map.1 this
    exact ⟨x, hx, by simp [he]⟩
  have hnone : ∀ c ∈ cs, l ∉ c.preds → givenScore c l = none := by
    intro c hc hp
    exact lookup_none _ (by rw [List.map_fst_zip (le_of_eq (hcov c hc).valid)]; exact hp)
  have hP := lengths_pn cs hl hscore hnone
  have hcp : (only (L.idxOf l) tables.flatten).countP IRow.isMatch = (positives cs l).length := by
    rw [hstream.countP_eq, ← stream_pos_scores L cs l, List.length_map, List.countP_eq_length_filter]
  have hcn : (only (L.idxOf l) tables.flatten).countP (fun r => !r.isMatch) = (negatives cs l).length := by
    rw [hstream.countP_eq, ← stream_neg L cs l, List.length_map, List.countP_eq_length_filter]
  have hneg : negCount (pdCount frags (L.idxOf l)) (gtCount frags (L.idxOf l)) = (negatives cs l).length := by
    rw [hgt, hpd, ← hP.1, ← hP.2]
    unfold negCount
    rw [if_pos (by omega)]
    omega
  obtain ⟨h1, h2⟩ := curve_climbs (idxOf_lt' hlL) tables
  have hlen := countP_split (only (L.idxOf l) tables.flatten)
  rw [hcp, hcn] at hlen
  rw [hcp, hcn, ← hchunks] at h1
  rw [← hchunks, ← hlen] at h2
  have hg : gtCount frags (L.idxOf l) = (positives cs l).length := by rw [hgt, ← hP.1]
  obtain ⟨⟨a, b⟩, e⟩ := area_bound hsum frags chunks (L.idxOf l) (by rw [hneg, hg]; exact h1)
  refine ⟨a, le_trans b (pow_le_pow_right₀ (by linarith) (by omega)), ?_⟩
  intro hsmall
  refine le_trans (e (by rw [hneg]; omega) (by rw [hg]; omega) (by omega)) ?_
  apply div_le_div_of_nonneg_right _ (by norm_num)
  exact_mod_cast (by omega : (points (L.idxOf l) chunks.flatten).length ≤ n + 1)

/-- **C74, the statistic.** Under the further conditions of `C21_rocauc_partial` the area computed in double precision differs from the
Mann-Whitney statistic of the scores by at most `(n + 1) / 2 ^ 50`. -/
theorem C74_statistic_partial (calls : List (List Classif)) (hv : ∀ c ∈ calls.flatten, c.valid = true)
    (hnd : ∀ c ∈ history calls, c.preds.Nodup)
    {l : String} (hl : ∀ c ∈ history calls, c.gt = l → l ∈ c.preds) (hlL : l ∈ (Loader.init.addAll calls).labels)
    {top : Rat} (htop : top ∈ positives (history calls) l ++ negatives (history calls) l) (htop0 : top ≠ 0)
    (hmax : ∀ s ∈ positives (history calls) l ++ negatives (history calls) l, s ≤ top)
    {frags : List (List Row)} (hf : FragmentsOf frags (Loader.init.addAll calls).rows.flatten)
    {tables : List (List IRow)} (hperm : tables.flatten.Perm ((Loader.init.addAll calls).rows.flatten.map irow))
    (hsort : tables.flatten.Pairwise (fun a b => b.score ≤ a.score))
    {chunks : List (List RocRow)}
    (hchunks : chunks.flatten = rocCurve (List.range (Loader.init.addAll calls).labels.length)
      (Loader.init.addAll calls).labels.length tables)
    (hcut : NoCut ((Loader.init.addAll calls).labels.idxOf l) chunks)
    {sum : List Rat → Rat} (hsum : ∀ xs, Sums xs (sum xs))
    (hn : (positives (history calls) l).length + (negatives (history calls) l).length + 1 ≤ 2 ^ 52) :
    |flRocauc sum frags chunks ((Loader.init.addAll calls).labels.idxOf l)
        - mannWhitney (positives (history calls) l) (negatives (history calls) l)|
      ≤ (((positives (history calls) l).length + (negatives (history calls) l).length + 1 : Nat) : Rat) / 2 ^ 50 := by
  have := (C74_range_partial calls hv hnd hl hlL hf hperm hchunks hsum rfl).2.2 hn
  rwa [C21_rocauc_partial calls hv hnd hl htop htop0 hmax hf hperm hsort hchunks hcut] at this

/-! ## Violations -/

/-- One datum of label `a` scored 0.9, and others scored lower in groups of equal scores: `groups` lists the sizes. -/
def ranked (groups : List Nat) : List (List Classif) :=
  [⟨"p", "a", ["a"], [9/10], ""⟩ :: (groups.zipIdx.flatMap (fun g => (List.range g.1).map (fun i =>
    (⟨s!"n{g.2}-{i}", "b", ["a"], [(8 - (g.2 : Rat)) / 10], ""⟩ : Classif))))]

/-- The whole computation over one table in memory, in double precision. -/
def flPipeline (sum : List Rat → Rat) (calls : List (List Classif)) (l : String) : Rat :=
  let s := Loader.init.addAll calls
  let n := s.labels.length
  let sorted := (s.rows.flatten.map irow).insertionSort (fun a b => b.score ≤ a.score)
  flRocauc sum [s.rows.flatten] [rocCurve (List.range n) n [sorted]] (s.labels.idxOf l)

/-- **C74 fails (above 1).** One positive datum ranked above 20 negative ones, in groups of 3, 2, 1, 1, 1, 1 and 11 equal scores: the exact
area is 1, the area in double precision, added in the order of NumPy, is `1 + 2 ^ -52`. -/
theorem C74_above_violation :
    pipeline (ranked [3, 2, 1, 1, 1, 1, 11]) (fun r => [r]) "a" = 1 ∧
    flPipeline npSum (ranked [3, 2, 1, 1, 1, 1, 11]) "a" = 1 + 1 / 2 ^ 52 := by
  decide +kernel

/-- **C74 fails (a perfect ranking below 1).** One positive datum ranked above 6 negative ones, in groups of 2, 3 and 1 equal scores: the
exact area is 1, the area in double precision is the next double below. -/
theorem C74_perfect_violation :
    pipeline (ranked [2, 3, 1]) (fun r => [r]) "a" = 1 ∧
    flPipeline npSum (ranked [2, 3, 1]) "a" = 1 - 1 / 2 ^ 53 := by
  decide +kernel

/-- The hypotheses of the theorems hold for the second witness. -/
example : (∀ c ∈ (ranked [2, 3, 1]).flatten, c.valid = true) ∧ (∀ c ∈ history (ranked [2, 3, 1]), c.preds.Nodup) ∧
    (∀ c ∈ history (ranked [2, 3, 1]), c.gt = "a" → "a" ∈ c.preds) ∧ "a" ∈ (Loader.init.addAll (ranked [2, 3, 1])).labels := by
  decide +kernel

end Verif.Float
