import Verif.Detection.AddedProps
import Verif.Detection.MonotoneProps

/-!
# C92: the precision-recall curve and the counts at score thresholds
-/

namespace Verif.Detection

open Verif.Cache (sortBy)

/-- The reported precision-recall curve of label `v` at IoU threshold `t`: 101 interpolated precisions. -/
def Built.curve (e : Built) (t : Rat) (v : String) : List Rat := interpolated (curveOf t (e.gt v) (labelId e.calls v) e.chunks).prec

/-- The average precision of label `v` at IoU threshold `t`. -/
def Built.ap (e : Built) (t : Rat) (v : String) : Rat := averagePrecision (curveOf t (e.gt v) (labelId e.calls v) e.chunks).prec

/-! ## Prefixes of the ranked rows -/

theorem filter_prefix {α : Type} {R : List α} {q : α → Bool} (h : R.Pairwise (fun a b => q b = true → q a = true)) :
    R.filter q = R.take (R.filter q).length := by
  induction R with
  | nil => rfl
  | cons a R ih =>
    rw [List.pairwise_cons] at h
    by_cases hq : q a = true
    · rw [List.filter_cons_of_pos hq, List.length_cons, List.take_succ_cons, ← ih h.2]
    · have : R.filter q = [] := List.filter_eq_nil_iff.2 (fun b hb hqb => hq (h.1 b hb hqb))
      rw [List.filter_cons_of_neg hq, this]
      rfl

theorem active_prefix {R : List RRow} (hs : R.Pairwise (fun a b => b.row.score ≤ a.row.score)) (l : Int) (hl : ∀ r ∈ R, r.row.pl = l) (s : Rat) :
    R.filter (fun r => decide (Active s l r)) = R.take (R.filter (fun r => decide (Active s l r))).length := by
  apply filter_prefix
  refine hs.imp_of_mem ?_
  intro a b ha _ hab h
  rw [decide_eq_true_eq] at h ⊢
  exact ⟨hl a ha, le_trans h.2.1 hab, lt_of_lt_of_le h.2.2 hab⟩

theorem tpInner_active {t s : Rat} {l : Int} {r : RRow} (hl : r.row.pl = l) : tpInner t s r = (decide (Active s l r) && tpOuter t r) := by
  unfold tpInner tpOuter scoreNonzero
  rw [Bool.eq_iff_iff]
  simp only [Bool.and_eq_true, decide_eq_true_eq]
  constructor
  · rintro ⟨⟨⟨h1, h2⟩, h3⟩, h4⟩
    exact ⟨⟨hl, h4, h1⟩, ⟨h1, h2⟩, h3⟩
  · rintro ⟨⟨_, h4, h1⟩, ⟨_, h2⟩, h3⟩
    exact ⟨⟨⟨h1, h2⟩, h3⟩, h4⟩

/-- The hits among the rows that pass a score threshold. -/
theorem hits_active {R : List RRow} (hs : R.Pairwise (fun a b => b.row.score ≤ a.row.score)) (l : Int) (hl : ∀ r ∈ R, r.row.pl = l) (t s : Rat) :
    hits (R.map (tpOuter t)) (R.filter (fun r => decide (Active s l r))).length = (R.filter (fun r => tpInner t s r)).length := by
  unfold hits
  rw [← List.map_take, ← active_prefix hs l hl s, List.count_eq_countP, List.countP_map, List.countP_eq_length_filter, List.filter_filter]
  congr 1
  apply List.filter_congr
  intro r hr
  rw [tpInner_active (hl r hr), Bool.and_comm]
  simp

/-- The rows that pass the score of one of them, when no other has this score. -/
theorem active_split {A B : List RRow} {r : RRow} {l : Int} (hs : (A ++ r :: B).Pairwise (fun a b => b.row.score ≤ a.row.score))
    (hl : ∀ x ∈ A ++ r :: B, x.row.pl = l) (heps : EPSILON < r.row.score)
    (hone : ((A ++ r :: B).filter (fun x => decide (x.row.score = r.row.score))).length ≤ 1) :
    ((A ++ r :: B).filter (fun x => decide (Active r.row.score l x))).length = A.length + 1 := by
  rw [List.pairwise_append, List.pairwise_cons] at hs
  obtain ⟨_, ⟨w2, _⟩, w4⟩ := hs
  have hnone : ∀ x ∈ B, x.row.score ≠ r.row.score := by
    intro x hx he
    rw [List.filter_append, List.filter_cons, if_pos (decide_eq_true rfl), List.length_append, List.length_cons] at hone
    have : 0 < (B.filter (fun x => decide (x.row.score = r.row.score))).length :=
      List.length_pos_of_mem (List.mem_filter.2 ⟨hx, decide_eq_true he⟩)
    omega
  have f1 : A.filter (fun x => decide (Active r.row.score l x)) = A := by
    apply List.filter_eq_self.2
    intro x hx
    have := w4 x hx r List.mem_cons_self
    exact decide_eq_true ⟨hl x (List.mem_append_left _ hx), this, lt_of_lt_of_le heps this⟩
  have f2 : B.filter (fun x => decide (Active r.row.score l x)) = [] := by
    apply List.filter_eq_nil_iff.2
    intro x hx ha
    exact hnone x hx (le_antisymm (w2 x hx) (of_decide_eq_true ha).2.1)
  have f3 : Active r.row.score l r := ⟨hl r (by simp), le_refl _, heps⟩
  rw [List.filter_append, List.filter_cons, if_pos (decide_eq_true f3), f1, f2, List.length_append]
  rfl

section

variable {tables : List (List Row)} (hc : CacheOk tables) {out : List RRow} (h : RankedOf tables out) {t : Rat} (ht : 0 < t) (l : Int)
  (chunks : List (List RRow)) (hch : chunks.flatten = out)

include hc h ht hch

/-- The counts at a score threshold are those of a prefix of the ranked predictions of the label. -/
theorem threshold_prefix (s : Rat) :
    tpTotal t s chunks l + fpTotal t s chunks l ≤ ((out.filter (fun r => decide (r.row.pl = l))).map (tpOuter t)).length ∧
    hits ((out.filter (fun r => decide (r.row.pl = l))).map (tpOuter t)) (tpTotal t s chunks l + fpTotal t s chunks l) = tpTotal t s chunks l := by
  have e1 : tpTotal t s chunks l + fpTotal t s chunks l
      = ((out.filter (fun r => decide (r.row.pl = l))).filter (fun r => decide (Active s l r))).length := by
    rw [C28_tp_fp, hch, List.filter_filter]
    congr 1
    apply List.filter_congr
    intro r _
    rw [Bool.eq_iff_iff]
    simp only [Bool.and_eq_true, decide_eq_true_eq]
    exact ⟨fun h => ⟨h, h.1⟩, fun h => h.1⟩
  constructor
  · rw [e1, List.length_map]
    exact List.length_filter_le _ _
  · rw [e1, hits_active ((ranked_scores h).filter _) l (fun r hr => of_decide_eq_true (List.mem_filter.1 hr).2), List.filter_filter,
      tpTotal_eq hc h ht s l chunks hch]
    congr 1
    apply List.filter_congr
    intro r _
    rw [Bool.and_comm]

/-- The number of hits is at most the number of ground truths. -/
theorem hits_bound : ((out.filter (fun r => decide (r.row.pl = l))).map (tpOuter t)).count true ≤ gtCount tables l := by
  refine le_trans ?_ (C28_bound hc h t EPSILON l chunks hch)
  rw [tpTotal_eq hc h ht EPSILON l chunks hch, List.count_eq_countP, List.countP_map, List.countP_eq_length_filter, List.filter_filter]
  apply le_of_eq
  congr 1
  apply List.filter_congr
  intro r _
  by_cases hl : r.row.pl = l
  · rw [tpInner_active hl]
    unfold tpOuter scoreNonzero
    rw [Bool.eq_iff_iff]
    simp only [Function.comp, beq_iff_eq, Bool.and_eq_true, decide_eq_true_eq]
    constructor
    · rintro ⟨⟨⟨h1, h2⟩, h3⟩, _⟩
      exact ⟨hl, ⟨hl, le_of_lt h1, h1⟩, ⟨h1, h2⟩, h3⟩
    · rintro ⟨_, _, h1, h3⟩
      exact ⟨⟨h1, h3⟩, hl⟩
  · simp [hl]

/-- Each score threshold is a lower bound of the curve. -/
theorem curve_above (s : Rat) (j : Nat) (hj : j < (interpolated (curveOf t (gtCount tables l) l chunks).prec).length)
    (hr : (j : Rat) / 100 ≤ recall (tpTotal t s chunks l) (gtCount tables l)) :
    precision (tpTotal t s chunks l) (fpTotal t s chunks l) ≤ (interpolated (curveOf t (gtCount tables l) l chunks).prec)[j] := by
  obtain ⟨_, h2, _⟩ := C29_interpolation t (gtCount tables l) l chunks _ (by rw [hch]) (hits_bound hc h ht l chunks hch)
  obtain ⟨p1, p2⟩ := threshold_prefix hc h ht l chunks hch s
  have hI := h2 j hj
  generalize (interpolated (curveOf t (gtCount tables l) l chunks).prec)[j] = w at hI ⊢
  unfold precision
  split
  · rename_i hpos
    have := hI.1 _ ⟨hpos, p1, by
      rw [p2]
      unfold recall at hr
      split at hr
      · exact hr
      · rename_i hn
        have : gtCount tables l = 0 := by omega
        rw [this, Nat.cast_zero, div_zero]
        exact hr⟩
    unfold precisionAt at this
    rw [p2] at this
    exact this
  · rcases hI.2 with ⟨q, _⟩ | ⟨k, _, q⟩
    · rw [q]
    · rw [q]; exact (precisionAt_range _ k).1

/-- If the scores of the label are different, each value of the curve is attained at a score threshold. -/
theorem curve_attained (hd : ∀ c, EPSILON < c → (out.filter (fun r => decide (r.row.pl = l ∧ r.row.score = c))).length ≤ 1) (j : Nat)
    (hj : j < (interpolated (curveOf t (gtCount tables l) l chunks).prec).length) :
    (interpolated (curveOf t (gtCount tables l) l chunks).prec)[j] = 0 ∨ ∃ s, EPSILON < s ∧
      (j : Rat) / 100 ≤ recall (tpTotal t s chunks l) (gtCount tables l) ∧
      (interpolated (curveOf t (gtCount tables l) l chunks).prec)[j] = precision (tpTotal t s chunks l) (fpTotal t s chunks l) := by
  have hb := hits_bound hc h ht l chunks hch
  obtain ⟨_, h2, _⟩ := C29_interpolation t (gtCount tables l) l chunks _ (by rw [hch]) hb
  have hI := h2 j hj
  have hup := fun s => curve_above hc h ht l chunks hch s j hj
  generalize (interpolated (curveOf t (gtCount tables l) l chunks).prec)[j] = w at hI hup ⊢
  rcases hI.2 with ⟨q, _⟩ | ⟨k, ⟨k1, k2, k3⟩, q⟩
  · exact Or.inl q
  by_cases hz : hits ((out.filter (fun r => decide (r.row.pl = l))).map (tpOuter t)) k = 0
  · left
    rw [q]
    unfold precisionAt
    rw [hz]
    simp
  right
  obtain ⟨i, hi, hik, hit, hhits⟩ := last_hit _ k k2 (Nat.pos_of_ne_zero hz)
  have hsc := (ranked_scores h).filter (fun r => decide (r.row.pl = l))
  have hiR : i < (out.filter (fun r => decide (r.row.pl = l))).length := by simpa using hi
  generalize hR : out.filter (fun r => decide (r.row.pl = l)) = R at *
  have hRl : ∀ r ∈ R, r.row.pl = l := fun r hr => by
    rw [← hR] at hr
    exact of_decide_eq_true (List.mem_filter.1 hr).2
  have hto : tpOuter t R[i] = true := by simpa using hit
  have heps : EPSILON < R[i].row.score := by
    unfold tpOuter scoreNonzero at hto
    simp only [Bool.and_eq_true, decide_eq_true_eq] at hto
    exact hto.1.1
  generalize hs : R[i].row.score = s at *
  have e1 : tpTotal t s chunks l + fpTotal t s chunks l = (R.filter (fun r => decide (Active s l r))).length := by
    rw [C28_tp_fp, hch, ← hR, List.filter_filter]
    refine congrArg List.length ?_
    apply List.filter_congr
    intro r _
    rw [Bool.eq_iff_iff]
    simp only [Bool.and_eq_true, decide_eq_true_eq]
    exact ⟨fun h => ⟨h, h.1⟩, fun h => h.1⟩
  have e2 : (R.filter (fun r => decide (Active s l r))).length = i + 1 := by
    have hone : (R.filter (fun r => decide (r.row.score = s))).length ≤ 1 := by
      refine le_trans (le_of_eq ?_) (hd s heps)
      rw [← hR, List.filter_filter]
      refine congrArg List.length ?_
      apply List.filter_congr
      intro r _
      rw [Bool.eq_iff_iff]
      simp only [Bool.and_eq_true, decide_eq_true_eq]
      exact and_comm
    have hsplit : R.take i ++ R[i] :: R.drop (i + 1) = R := by
      rw [List.getElem_cons_drop, List.take_append_drop]
    have := active_split (A := R.take i) (r := R[i]) (B := R.drop (i + 1)) (l := l) (by rw [hsplit]; exact hsc) (by rw [hsplit]; exact hRl) (by rw [hs]; exact heps)
      (by rw [hsplit, hs]; exact hone)
    rw [hsplit, hs, List.length_take, Nat.min_eq_left hiR.le] at this
    exact this
  obtain ⟨_, p2⟩ := threshold_prefix hc h ht l chunks hch s
  rw [e1, e2, hR, hhits] at p2
  have hrec : (j : Rat) / 100 ≤ recall (tpTotal t s chunks l) (gtCount tables l) := by
    unfold recall
    rw [p2] at k3
    split
    · exact k3
    · rename_i hn
      have h0 : gtCount tables l = 0 := by omega
      rw [h0, Nat.cast_zero, div_zero] at k3
      exact k3
  refine ⟨s, heps, hrec, le_antisymm ?_ (hup s hrec)⟩
  rw [q]
  unfold precisionAt precision
  rw [e1, e2, if_pos (by omega), p2]
  apply div_le_div_of_nonneg_left (Nat.cast_nonneg _)
  · exact_mod_cast Nat.succ_pos i
  · exact_mod_cast hik

end

/-! ## Different scores -/

/-- All scores that predictions give to label `v`, in the order of the annotations. -/
def allScores (v : String) (H : History) : List Rat := H.flatMap (fun x => scoresFor v x.1.pds)

/-- No two predictions give the label the same score above EPSILON. -/
def DifferentScores (v : String) (H : History) : Prop := ((allScores v H).filter (fun c => decide (EPSILON < c))).Nodup

theorem gap (L : List Rat) (c : Rat) : ∃ c', c < c' ∧ ∀ x ∈ L, c < x → c' ≤ x := by
  induction L with
  | nil => exact ⟨c + 1, by linarith, by simp⟩
  | cons a L ih =>
    obtain ⟨c', h1, h2⟩ := ih
    by_cases ha : c < a
    · refine ⟨min a c', lt_min ha h1, ?_⟩
      intro x hx hc
      rcases List.mem_cons.1 hx with rfl | hx
      · exact min_le_left _ _
      · exact le_trans (min_le_right _ _) (h2 x hx hc)
    · refine ⟨c', h1, ?_⟩
      intro x hx hc
      rcases List.mem_cons.1 hx with rfl | hx
      · exact absurd hc ha
      · exact h2 x hx hc

theorem scoresFor_count (x : Det × (Nat → Nat → Rat)) (v : String) (q : Rat → Bool) :
    ((scoresFor v x.1.pds).filter q).length
      = ((List.range x.1.pds.length).filter (fun p => (x.1.pds[p]?).any (fun a => decide (v ∈ a.labels) && q (scoreOf v a)))).length := by
  unfold scoresFor
  rw [List.filter_map, List.length_map, List.filter_filter]
  generalize x.1.pds = l
  induction l using List.reverseRecOn with
  | nil => rfl
  | append_singleton l a ih =>
    rw [List.filter_append, List.length_append, ih, List.length_append, List.length_singleton, List.range_succ, List.filter_append, List.length_append]
    congr 1
    · congr 1
      apply List.filter_congr
      intro p hp
      rw [List.getElem?_append_left (List.mem_range.1 hp)]
    · rw [List.filter_singleton, List.filter_singleton, List.getElem?_concat_length]
      simp [Bool.and_comm]
      cases decide (v ∈ a.labels) && q (scoreOf v a) <;> rfl

theorem pdCount_step {x : Det × (Nat → Nat → Rat)} {v : String} {c c' : Rat}
    (hgap : ∀ y ∈ scoresFor v x.1.pds, c < y → c' ≤ y) :
    pdCount x c v ≤ pdCount x c' v + ((scoresFor v x.1.pds).filter (fun y => decide (EPSILON < y ∧ y = c))).length := by
  classical
  rw [scoresFor_count]
  unfold pdCount
  generalize hn : List.range x.1.pds.length = L
  have key : ∀ p, Counted x c v p → Counted x c' v p ∨ (x.1.pds[p]?).any (fun a => decide (v ∈ a.labels) && decide (EPSILON < scoreOf v a ∧ scoreOf v a = c)) = true := by
    rintro p ⟨⟨a, ha, hv, hs, he⟩, ht⟩
    rcases lt_or_eq_of_le hs with hlt | heq
    · left
      refine ⟨⟨a, ha, hv, ?_, he⟩, ht⟩
      apply hgap _ _ hlt
      unfold scoresFor
      exact List.mem_map.2 ⟨a, List.mem_filter.2 ⟨List.mem_of_getElem? ha, decide_eq_true hv⟩, rfl⟩
    · right
      rw [ha]
      simp only [Option.any_some, Bool.and_eq_true, decide_eq_true_eq]
      exact ⟨hv, he, heq.symm⟩
  clear hn
  induction L with
  | nil => simp
  | cons p L ih =>
    simp only [List.filter_cons]
    have hk := key p
    by_cases b1 : Counted x c v p
    · rw [if_pos (decide_eq_true b1), List.length_cons]
      rcases hk b1 with b2 | b2
      · rw [if_pos (decide_eq_true b2), List.length_cons]
        split
        · rw [List.length_cons]; omega
        · omega
      · rw [if_pos b2, List.length_cons]
        split
        · rw [List.length_cons]; omega
        · omega
    · rw [if_neg (by simpa using b1)]
      split <;> split <;> (try simp only [List.length_cons]) <;> omega

/-- Different scores of the annotations are different scores of the ranked rows. -/
theorem rows_different (e : Built) (hH : HistoryOk e.calls.flatten) (hD : DistinctLabels e.calls.flatten) (hS : SizesOk (Loader.init.addAll e.calls))
    {v : String} (hd : DifferentScores v e.calls.flatten) {c : Rat} (hc : EPSILON < c) :
    (e.chunks.flatten.filter (fun r => decide (r.row.pl = labelId e.calls v ∧ r.row.score = c))).length ≤ 1 := by
  obtain ⟨c', h1, h2⟩ := gap (allScores v e.calls.flatten) c
  have p1 := (C54_exact e hH hD hS 1 c v).2.1
  have p2 := (C54_exact e hH hD hS 1 c' v).2.1
  have hstep : (e.calls.flatten.map (fun x => pdCount x c v)).sum ≤ (e.calls.flatten.map (fun x => pdCount x c' v)).sum
      + ((allScores v e.calls.flatten).filter (fun y => decide (EPSILON < y ∧ y = c))).length := by
    revert h2
    unfold allScores
    generalize e.calls.flatten = H
    intro h2
    induction H with
    | nil => simp
    | cons x H ih =>
      rw [List.map_cons, List.map_cons, List.sum_cons, List.sum_cons, List.flatMap_cons, List.filter_append, List.length_append]
      have a1 := ih (fun y hy => h2 y (by rw [List.flatMap_cons]; exact List.mem_append_right _ hy))
      have a2 := pdCount_step (x := x) (v := v) (c := c) (c' := c') (fun y hy => h2 y (by rw [List.flatMap_cons]; exact List.mem_append_left _ hy))
      omega
  have hone : ((allScores v e.calls.flatten).filter (fun y => decide (EPSILON < y ∧ y = c))).length ≤ 1 := by
    have : (allScores v e.calls.flatten).filter (fun y => decide (EPSILON < y ∧ y = c))
        = ((allScores v e.calls.flatten).filter (fun y => decide (EPSILON < y))).filter (fun y => y == c) := by
      rw [List.filter_filter]
      apply List.filter_congr
      intro y _
      rw [Bool.eq_iff_iff]
      simp [and_comm]
    rw [this, List.filter_beq, List.length_replicate]
    exact List.nodup_iff_count_le_one.1 hd c
  unfold Built.tp Built.fp at p1 p2
  rw [C28_tp_fp] at p1 p2
  have hsplit : (e.chunks.flatten.filter (fun r => decide (r.row.pl = labelId e.calls v ∧ r.row.score = c))).length
      + (e.chunks.flatten.filter (fun r => decide (Active c' (labelId e.calls v) r))).length
      ≤ (e.chunks.flatten.filter (fun r => decide (Active c (labelId e.calls v) r))).length := by
    generalize e.chunks.flatten = R
    induction R with
    | nil => simp
    | cons r R ih =>
      simp only [List.filter_cons]
      have k1 : r.row.pl = labelId e.calls v ∧ r.row.score = c → Active c (labelId e.calls v) r ∧ ¬ Active c' (labelId e.calls v) r := by
        rintro ⟨q1, q2⟩
        exact ⟨⟨q1, q2.ge, q2 ▸ hc⟩, fun hh => absurd (le_trans hh.2.1 q2.le) (not_le.2 h1)⟩
      have k2 : Active c' (labelId e.calls v) r → Active c (labelId e.calls v) r := fun hh => ⟨hh.1, le_trans h1.le hh.2.1, hh.2.2⟩
      by_cases b1 : r.row.pl = labelId e.calls v ∧ r.row.score = c
      · obtain ⟨k3, k4⟩ := k1 b1
        rw [if_pos (decide_eq_true b1), if_pos (decide_eq_true k3), if_neg (by simpa using k4), List.length_cons, List.length_cons]
        omega
      · rw [if_neg (by simpa using b1)]
        by_cases b2 : Active c' (labelId e.calls v) r
        · rw [if_pos (decide_eq_true b2), if_pos (decide_eq_true (k2 b2)), List.length_cons, List.length_cons]
          omega
        · rw [if_neg (by simpa using b2)]
          split
          · rw [List.length_cons]; omega
          · exact ih
  omega

end Verif.Detection
