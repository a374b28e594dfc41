import Verif.Detection.ReportMetrics
import Verif.Detection.DivisionProps

/-! # C61: the scores of the precision-recall curve -/

namespace Verif.Detection

/-! ## Predictions above a score -/

theorem hits_mono (ds : List Bool) {i k : Nat} (h : i ≤ k) : hits ds i ≤ hits ds k := by
  unfold hits
  exact (List.take_prefix_take_left h).sublist.count_le true

/-- In descending order the predictions with at least a score come first. -/
theorem count_above {rows : List RRow} (h : rows.Pairwise (fun x y => y.row.score ≤ x.row.score)) (t s : Rat) :
    (rows.filter (fun r => decide (s ≤ r.row.score) && tpOuter t r)).length
      = hits (rows.map (tpOuter t)) (rows.takeWhile (fun r => decide (s ≤ r.row.score))).length := by
  induction rows with
  | nil => simp [hits]
  | cons r rs ih =>
    rw [List.pairwise_cons] at h
    by_cases hs : s ≤ r.row.score
    · rw [List.takeWhile_cons_of_pos (by simpa using hs), List.length_cons, List.map_cons, hits_cons, ← ih h.2, List.filter_cons]
      by_cases ht : tpOuter t r
      · simp [hs, ht, Nat.add_comm]
      · simp [hs, ht]
    · rw [List.takeWhile_cons_of_neg (by simpa using hs)]
      have : (r :: rs).filter (fun r => decide (s ≤ r.row.score) && tpOuter t r) = [] := by
        rw [List.filter_eq_nil_iff]
        intro x hx
        have : ¬ s ≤ x.row.score := by
          rcases List.mem_cons.1 hx with rfl | hx
          · exact hs
          · exact fun hle => hs (le_trans hle (h.1 x hx))
        simp [this]
      rw [this]
      simp [hits]

theorem takeWhile_get {α : Type} {p : α → Bool} {l : List α} {i : Nat} (h : i < (l.takeWhile p).length) (hi : i < l.length) : p l[i] = true := by
  have h1 : (l.takeWhile p)[i] ∈ l.takeWhile p := List.getElem_mem h
  have h2 := List.mem_takeWhile_imp h1
  have h3 : (l.takeWhile p)[i] = l[i] := (List.takeWhile_prefix p).getElem h
  rwa [h3] at h2

theorem takeWhile_ge {rows : List RRow} (h : rows.Pairwise (fun x y => y.row.score ≤ x.row.score)) {s : Rat} {k : Nat} (hk : k < rows.length)
    (hs : s ≤ rows[k].row.score) : k + 1 ≤ (rows.takeWhile (fun r => decide (s ≤ r.row.score))).length := by
  induction rows generalizing k with
  | nil => simp at hk
  | cons r rs ih =>
    rw [List.pairwise_cons] at h
    have hr : s ≤ r.row.score := by
      cases k with
      | zero => exact hs
      | succ k => exact le_trans hs (h.1 _ (List.getElem_mem (by simpa using hk)))
    rw [List.takeWhile_cons_of_pos (by simpa using hr), List.length_cons]
    cases k with
    | zero => omega
    | succ k =>
      have := ih h.2 (k := k) (by simpa using hk) (by simpa using hs)
      omega

/-- True positives of a label at a score threshold, from the rows of the label. -/
theorem tpTotal_rows {tables : List (List Row)} (hc : CacheOk tables) {out : List RRow} (h : RankedOf tables out)
    {t : Rat} (ht : 0 < t) (s : Rat) (l : Int) {chunks : List (List RRow)} (hch : chunks.flatten = out) :
    tpTotal t s chunks l = ((out.filter (fun r => decide (r.row.pl = l))).filter (fun r => decide (s ≤ r.row.score) && tpOuter t r)).length := by
  rw [tpTotal_eq hc h ht s l chunks hch, List.filter_filter]
  congr 1
  apply List.filter_congr
  intro r hr
  obtain ⟨_, h2, h3⟩ := ranked_pd hc h hr
  rw [Bool.eq_iff_iff]
  simp only [Bool.and_eq_true, decide_eq_true_eq, tpOuter_iff h3 h2, tpInner_iff h3 h2]
  tauto

/-! ## C61 -/

/-- **C61 (score at a recall level).** For every cache, every division of the ranked cache and every level
`j / 100 > 0`: the score that is reported at the level is the highest score threshold at which recall reaches
the level. No higher threshold reaches it, and the reported score reaches it unless it is 0, which stands for
a level that is never reached. -/
theorem C61_score_curve {tables : List (List Row)} (hc : CacheOk tables) {out : List RRow} (h : RankedOf tables out)
    {chunks : List (List RRow)} (hch : chunks.flatten = out) {t : Rat} (ht : 0 < t) {l : Int} (hn : 0 < gtCount tables l) :
    (interpolated (curveOf t (gtCount tables l) l chunks).score).length = 101 ∧
    ∀ j, 1 ≤ j → ∀ hj : j < (interpolated (curveOf t (gtCount tables l) l chunks).score).length,
      let v := (interpolated (curveOf t (gtCount tables l) l chunks).score)[j]
      (∀ s, v < s → recallAt tables chunks t s l < (j : Rat) / 100) ∧
      ((EPSILON < v ∧ (j : Rat) / 100 ≤ recallAt tables chunks t v l) ∨ v = 0) := by
  have hdesc : (out.filter (fun r => decide (r.row.pl = l))).Pairwise (fun x y => y.row.score ≤ x.row.score) :=
    (ranked_scores h).sublist List.filter_sublist
  have hrec : ∀ s, recallAt tables chunks t s l
      = (hits ((out.filter (fun r => decide (r.row.pl = l))).map (tpOuter t))
        ((out.filter (fun r => decide (r.row.pl = l))).takeWhile (fun r => decide (s ≤ r.row.score))).length : Rat) / (gtCount tables l : Rat) := by
    intro s
    unfold recallAt recall
    rw [if_pos hn, tpTotal_rows hc h ht s l hch, count_above hdesc]
  have hcnt : ((out.filter (fun r => decide (r.row.pl = l))).map (tpOuter t)).count true ≤ gtCount tables l := correctRows_le hc h t l
  have hsc : (curveOf t (gtCount tables l) l chunks).score = topScore (fun _ => 0) (points t (gtCount tables l) 0 0
      (out.filter (fun r => decide (r.row.pl = l)))).1 := by
    have := curve_score t (gtCount tables l) l chunks Curve.init (by rw [hch]; exact ranked_scores h)
    rw [hch] at this
    exact this
  have heps : ∀ r ∈ out.filter (fun r => decide (r.row.pl = l)), tpOuter t r = true → EPSILON < r.row.score := by
    intro r hr htr
    obtain ⟨_, h2, h3⟩ := ranked_pd hc h (List.mem_filter.1 hr).1
    exact ((tpOuter_iff h3 h2 t).1 htr).2
  rw [hsc]
  generalize hrows : out.filter (fun r => decide (r.row.pl = l)) = rows at *
  generalize hngt : gtCount tables l = n at *
  set c := topScore (fun _ => 0) (points t n 0 0 rows).1 with hcdef
  obtain ⟨h1, _, h3⟩ := sweep_spec c 101 0
  refine ⟨h1, ?_⟩
  intro j hj1 hj
  unfold interpolated at hj ⊢
  obtain ⟨⟨g1, g2⟩, g3⟩ := h3 j hj
  generalize (sweep c 101 0).1[j] = v at *
  have hnq : (0 : Rat) < (n : Rat) := by exact_mod_cast hn
  -- every true positive that reaches the level has at most this score
  have hub : ∀ k, ∀ hk : k < rows.length, tpOuter t rows[k] = true →
      (j : Rat) / 100 ≤ (hits (rows.map (tpOuter t)) (k + 1) : Rat) / (n : Rat) → rows[k].row.score ≤ v := by
    intro k hk htk hlev
    set b := (⌊recall (hits (rows.map (tpOuter t)) (k + 1)) n * 100⌋).toNat with hb
    have hb1 : j ≤ b := by rw [hb, bin_ge j hn]; exact hlev
    have hb2 : b < 101 := by
      have := bin_le (le_trans (hits_le_count (rows.map (tpOuter t)) (k + 1)) hcnt)
      omega
    refine le_trans ?_ (g2 b hb1 hb2)
    rw [hcdef]
    unfold topScore
    apply (foldl_max_ge _ _).2
    refine List.mem_map.2 ⟨⟨b, (hits (rows.map (tpOuter t)) (k + 1) : Rat) / ((0 + k + 1 : Nat) : Rat), rows[k].row.score⟩, ?_, rfl⟩
    rw [List.mem_filter, mem_points]
    refine ⟨⟨k, hk, ?_⟩, by simp⟩
    rw [if_pos htk, Nat.zero_add (hits (rows.map (tpOuter t)) (k + 1)), ← hb]
  constructor
  · intro s hs
    rw [hrec s]
    by_contra hcon
    rw [not_lt] at hcon
    set K := (rows.takeWhile (fun r => decide (s ≤ r.row.score))).length with hK
    have hKl : K ≤ rows.length := (List.takeWhile_sublist _).length_le
    have hpos : 0 < hits (rows.map (tpOuter t)) K := by
      by_contra h0
      have h0' : hits (rows.map (tpOuter t)) K = 0 := by omega
      rw [h0'] at hcon
      have : (0 : Rat) < (j : Rat) / 100 := by
        have : (1 : Rat) ≤ (j : Rat) := by exact_mod_cast hj1
        linarith
      simp at hcon
      linarith
    obtain ⟨i, hi, hik, hit, hhits⟩ := last_hit (rows.map (tpOuter t)) K (by simpa using hKl) hpos
    have hi' : i < rows.length := by simpa using hi
    have hle : s ≤ rows[i].row.score := by simpa using takeWhile_get (p := fun r : RRow => decide (s ≤ r.row.score)) hik hi'
    have := hub i hi' (by simpa using hit) (by rw [hhits]; exact hcon)
    linarith
  · rcases g3 with g3 | ⟨b, hb1, hb2, hb3⟩
    · exact Or.inr g3
    rw [hcdef] at hb3
    unfold topScore at hb3
    rcases foldl_max_mem (((points t n 0 0 rows).1.filter (fun p => decide (p.bin = b))).map Point.score) 0 with h0 | h0
    · exact Or.inr (hb3.trans h0)
    rw [← hb3] at h0
    obtain ⟨p, hp, hpv⟩ := List.mem_map.1 h0
    rw [List.mem_filter, decide_eq_true_eq, mem_points] at hp
    obtain ⟨⟨k, hk, rfl⟩, hbin⟩ := hp
    dsimp only at hbin hpv
    by_cases htk : tpOuter t rows[k] = true
    · left
      rw [if_pos htk, Nat.zero_add] at hbin
      have hlev : (j : Rat) / 100 ≤ (hits (rows.map (tpOuter t)) (k + 1) : Rat) / (n : Rat) := by
        rw [← bin_ge j hn, hbin]
        exact hb1
      refine ⟨by rw [← hpv]; exact heps _ (List.getElem_mem hk) htk, le_trans hlev ?_⟩
      rw [hrec v]
      apply div_le_div_of_nonneg_right _ hnq.le
      have := hits_mono (rows.map (tpOuter t)) (takeWhile_ge hdesc hk (le_of_eq hpv.symm))
      exact_mod_cast this
    · rw [if_neg htk] at hbin
      have : (⌊recall 0 n * 100⌋).toNat = 0 := by
        unfold recall
        split <;> simp
      omega

/-- **C61 (level 0).** At level 0 the highest score of all predictions with the label is reported, also of
predictions that are wrong. -/
theorem C61_level_zero {tables : List (List Row)} (hc : CacheOk tables) {out : List RRow} (h : RankedOf tables out)
    {chunks : List (List RRow)} (hch : chunks.flatten = out) (t : Rat) (l : Int)
    (hj : 0 < (interpolated (curveOf t (gtCount tables l) l chunks).score).length) :
    let v := (interpolated (curveOf t (gtCount tables l) l chunks).score)[0]
    (∀ r ∈ out, r.row.pl = l → r.row.score ≤ v) ∧ (v = 0 ∨ ∃ r ∈ out, r.row.pl = l ∧ r.row.score = v) := by
  have hcnt : ((out.filter (fun r => decide (r.row.pl = l))).map (tpOuter t)).count true ≤ gtCount tables l := correctRows_le hc h t l
  have hsc : (curveOf t (gtCount tables l) l chunks).score = topScore (fun _ => 0) (points t (gtCount tables l) 0 0
      (out.filter (fun r => decide (r.row.pl = l)))).1 := by
    have := curve_score t (gtCount tables l) l chunks Curve.init (by rw [hch]; exact ranked_scores h)
    rw [hch] at this
    exact this
  revert hj
  rw [hsc]
  have hmem : ∀ r : RRow, r ∈ out.filter (fun r => decide (r.row.pl = l)) ↔ r ∈ out ∧ r.row.pl = l := by
    intro r
    rw [List.mem_filter, decide_eq_true_eq]
  generalize hrows : out.filter (fun r => decide (r.row.pl = l)) = rows at *
  generalize hngt : gtCount tables l = n at *
  set c := topScore (fun _ => 0) (points t n 0 0 rows).1 with hcdef
  obtain ⟨h1, _, h3⟩ := sweep_spec c 101 0
  intro hj
  unfold interpolated at hj ⊢
  obtain ⟨⟨g1, g2⟩, g3⟩ := h3 0 hj
  generalize (sweep c 101 0).1[0] = v at *
  constructor
  · intro r hr hrl
    obtain ⟨k, hk, rfl⟩ := List.getElem_of_mem ((hmem r).2 ⟨hr, hrl⟩)
    set cn := (if tpOuter t rows[k] then 0 + hits (rows.map (tpOuter t)) (k + 1) else 0) with hcn
    have hcnn : cn ≤ n := by
      rw [hcn]
      split
      · rw [Nat.zero_add]
        exact le_trans (hits_le_count _ _) hcnt
      · omega
    have hb2 := bin_le hcnn
    refine le_trans ?_ (g2 (⌊recall cn n * 100⌋).toNat (by omega) (by omega))
    rw [hcdef]
    unfold topScore
    apply (foldl_max_ge _ _).2
    refine List.mem_map.2 ⟨⟨(⌊recall cn n * 100⌋).toNat, (cn : Rat) / ((0 + k + 1 : Nat) : Rat), rows[k].row.score⟩, ?_, rfl⟩
    rw [List.mem_filter, mem_points]
    exact ⟨⟨k, hk, rfl⟩, by simp⟩
  · rcases g3 with g3 | ⟨b, hb1, hb2, hb3⟩
    · exact Or.inl g3
    rw [hcdef] at hb3
    unfold topScore at hb3
    rcases foldl_max_mem (((points t n 0 0 rows).1.filter (fun p => decide (p.bin = b))).map Point.score) 0 with h0 | h0
    · exact Or.inl (hb3.trans h0)
    rw [← hb3] at h0
    obtain ⟨p, hp, hpv⟩ := List.mem_map.1 h0
    rw [List.mem_filter, decide_eq_true_eq, mem_points] at hp
    obtain ⟨⟨k, hk, rfl⟩, _⟩ := hp
    obtain ⟨m1, m2⟩ := (hmem rows[k]).1 (List.getElem_mem hk)
    exact Or.inr ⟨rows[k], m1, m2, hpv⟩

/-- **C61 (order).** Reported precisions and scores do not increase with the recall level, whatever the curve. -/
theorem C61_monotone (c : Nat → Rat) {i j : Nat} (hij : i ≤ j) (hj : j < (interpolated c).length) :
    (interpolated c)[j] ≤ (interpolated c)[i] := by
  unfold interpolated at hj ⊢
  obtain ⟨h1, _, h3⟩ := sweep_spec c 101 0
  obtain ⟨_, g3⟩ := h3 j hj
  obtain ⟨⟨e1, e2⟩, _⟩ := h3 i (by omega)
  rcases g3 with g3 | ⟨b, hb1, hb2, hb3⟩
  · rw [g3]; exact e1
  · rw [hb3]; exact e2 b (by omega) hb2

/-! ## An instance -/

example : ∃ out, RankedOf sampleTables out ∧ 0 < gtCount sampleTables 0 := by
  obtain ⟨out, _, h⟩ := rankedOf_file sampleTables _ (Verif.Cache.chunksOf_isBatching 3) 10 20
  exact ⟨out, h, by decide +kernel⟩

end Verif.Detection
