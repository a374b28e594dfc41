import Verif.Detection.SharperProps

/-! # C113: tighter boxes never hurt -/

namespace Verif.Detection

/-- `x'` is `x` with other boxes of the predictions: whenever a prediction overlaps a ground truth of a label most, it still does and with at least
the same IoU, and no prediction newly overlaps a label. -/
structure Tighter (x x' : Det × (Nat → Nat → Rat)) : Prop where
  same : x'.1 = x.1
  near : ∀ v p g, Nearest x v p g → Nearest x' v p g ∧ x.2 p g ≤ x'.2 p g
  touch : ∀ v p, Touches x' v p → Touches x v p

/-- A prediction that overlaps ground truths of a label overlaps one of them most. -/
theorem Touches.nearest {x : Det × (Nat → Nat → Rat)} {v : String} {p : Nat} (h : Touches x v p) : ∃ g, Nearest x v p g := by
  classical
  obtain ⟨g0, b0, hb0, hl0, he0⟩ := h
  let S : Finset Nat := (Finset.range x.1.gts.length).filter (fun g => ∃ b, x.1.gts[g]? = some b ∧ b.labels = [v])
  have hmem : ∀ g, g ∈ S ↔ ∃ b, x.1.gts[g]? = some b ∧ b.labels = [v] := by
    intro g
    simp only [S, Finset.mem_filter, Finset.mem_range, and_iff_right_iff_imp]
    rintro ⟨b, hb, _⟩
    exact (List.getElem?_eq_some_iff.1 hb).1
  obtain ⟨g1, h1, hmax⟩ := Finset.exists_max_image S (fun g => x.2 p g) ⟨g0, (hmem g0).2 ⟨b0, hb0, hl0⟩⟩
  let T := S.filter (fun g => x.2 p g1 ≤ x.2 p g)
  obtain ⟨g, hg, hmin⟩ := Finset.exists_min_image T id ⟨g1, Finset.mem_filter.2 ⟨h1, le_refl _⟩⟩
  obtain ⟨hgS, hgm⟩ := Finset.mem_filter.1 hg
  refine ⟨g, (hmem g).1 hgS, le_trans he0 (le_trans (hmax g0 ((hmem g0).2 ⟨b0, hb0, hl0⟩)) hgm), ?_⟩
  intro g' b' hb' hl'
  have h' := (hmem g').2 ⟨b', hb', hl'⟩
  have hle : x.2 p g' ≤ x.2 p g := le_trans (hmax g' h') hgm
  refine ⟨hle, fun hlt => lt_of_le_of_ne hle (fun he => ?_)⟩
  exact absurd (hmin g' (Finset.mem_filter.2 ⟨h', by rw [he]; exact hgm⟩)) (by simpa using hlt)

/-- Boxes that overlap more with the ground truths that they overlap most, and not more with the others, are tighter. -/
theorem tighter_of_closer {x x' : Det × (Nat → Nat → Rat)} (hs : x'.1 = x.1) (hup : ∀ v p g, Nearest x v p g → x.2 p g ≤ x'.2 p g)
    (hdown : ∀ p g, (∀ v, ¬ Nearest x v p g) → x'.2 p g ≤ x.2 p g) : Tighter x x' := by
  refine ⟨hs, ?_, ?_⟩
  · intro v p g hn
    have hup' := hup v p g hn
    refine ⟨?_, hup'⟩
    have hn0 := hn
    obtain ⟨⟨b, hb, hl⟩, he, hbest⟩ := hn
    refine ⟨⟨b, by rw [hs]; exact hb, hl⟩, le_trans he hup', ?_⟩
    intro g' b' hb' hl'
    rw [hs] at hb'
    obtain ⟨q1, q2⟩ := hbest g' b' hb' hl'
    by_cases hg : g' = g
    · subst hg
      exact ⟨le_refl _, fun h => absurd h (lt_irrefl _)⟩
    · have hno : ∀ w, ¬ Nearest x w p g' := by
        intro w hw
        obtain ⟨b'', hb'', hl''⟩ := hw.1
        rw [hb', Option.some.injEq] at hb''
        subst hb''
        rw [hl', List.cons.injEq] at hl''
        obtain ⟨rfl, _⟩ := hl''
        exact hg (nearest_unique hw hn0)
      have hd := hdown p g' hno
      exact ⟨le_trans hd (le_trans q1 hup'), fun hlt => lt_of_le_of_lt hd (lt_of_lt_of_le (q2 hlt) hup')⟩
  · rintro v p ⟨g, b, hb, hl, he⟩
    rw [hs] at hb
    by_cases hn : ∃ w, Nearest x w p g
    · obtain ⟨w, hn⟩ := hn
      obtain ⟨⟨b', hb', hl'⟩, he', _⟩ := hn
      exact ⟨g, b, hb, hl, he'⟩
    · exact ⟨g, b, hb, hl, le_trans he (hdown p g (fun w hw => hn ⟨w, hw⟩))⟩

section
variable {x x' : Det × (Nat → Nat → Rat)}

theorem Tighter.touches (h : Tighter x x') (v : String) (p : Nat) : Touches x' v p ↔ Touches x v p := by
  refine ⟨h.touch v p, fun ht => ?_⟩
  obtain ⟨g, hg⟩ := ht.nearest
  obtain ⟨⟨b, hb, hl⟩, he, _⟩ := (h.near v p g hg).1
  exact ⟨g, b, hb, hl, he⟩

theorem Tighter.hit (h : Tighter x x') {t s : Rat} {v : String} {g : Nat} (hh : Hit x t s v g) : Hit x' t s v g := by
  obtain ⟨p, hp, hn, ht⟩ := hh
  obtain ⟨h1, h2⟩ := h.near v p g hn
  refine ⟨p, ?_, h1, le_trans ht h2⟩
  unfold Passing
  rw [h.same]
  exact hp

theorem Tighter.pdCount (h : Tighter x x') (s : Rat) (v : String) : pdCount x' s v = pdCount x s v := by
  classical
  unfold Detection.pdCount
  rw [h.same]
  congr 1
  apply List.filter_congr
  intro p _
  rw [decide_eq_decide]
  unfold Counted Passing
  simp only [h.touches, h.same]

end

/-- The F1 score does not go down if neither precision nor recall does. -/
theorem f1_mono {p p' r r' : Rat} (hp : 0 ≤ p) (hr : 0 ≤ r) (hpp : p ≤ p') (hrr : r ≤ r') : f1 p r ≤ f1 p' r' := by
  have he : (0 : Rat) < EPSILON := by unfold EPSILON; norm_num
  unfold f1
  by_cases h : p + r > EPSILON
  · have h' : p' + r' > EPSILON := by linarith
    rw [if_pos h, if_pos h', div_le_div_iff₀ (by linarith) (by linarith)]
    have h1 : p * r * p' ≤ p * r' * p' := by
      apply mul_le_mul_of_nonneg_right _ (by linarith)
      exact mul_le_mul_of_nonneg_left hrr hp
    have h2 : p * r * r' ≤ p' * r * r' := by
      apply mul_le_mul_of_nonneg_right _ (by linarith)
      exact mul_le_mul_of_nonneg_right hpp hr
    nlinarith
  · rw [if_neg h]
    split
    · rename_i h'
      apply div_nonneg _ (by linarith)
      have : 0 ≤ p' * r' := mul_nonneg (by linarith) (by linarith)
      linarith
    · exact le_refl _

/-- **C113 (detection).** The boxes of the predictions are drawn tighter, in any number of detections: at every IoU and score threshold the
ground truths and the counted predictions of a label stay, the true positives do not go down, the false positives and false negatives do not
go up, and precision, recall and F1 do not go down; at a positive IoU threshold no value of the precision-recall curve goes down and not the
average precision, if no two predictions give the label the same score. -/
theorem C113_detection (e e' : Built) (hH : HistoryOk e.calls.flatten) (hH' : HistoryOk e'.calls.flatten) (hS : SizesOk (Loader.init.addAll e.calls))
    (hS' : SizesOk (Loader.init.addAll e'.calls)) (hD : DistinctLabels e.calls.flatten) (hD' : DistinctLabels e'.calls.flatten)
    (h : List.Forall₂ Tighter e.calls.flatten e'.calls.flatten) (t : Rat) (v : String) :
    (∀ s, e'.gt v = e.gt v ∧ e'.tp t s v + e'.fp t s v = e.tp t s v + e.fp t s v ∧
      e.tp t s v ≤ e'.tp t s v ∧ e'.fp t s v ≤ e.fp t s v ∧ e'.fn t s v ≤ e.fn t s v ∧
      precision (e.tp t s v) (e.fp t s v) ≤ precision (e'.tp t s v) (e'.fp t s v) ∧
      recall (e.tp t s v) (e.gt v) ≤ recall (e'.tp t s v) (e'.gt v) ∧
      f1 (precision (e.tp t s v) (e.fp t s v)) (recall (e.tp t s v) (e.gt v)) ≤
        f1 (precision (e'.tp t s v) (e'.fp t s v)) (recall (e'.tp t s v) (e'.gt v))) ∧
    (0 < t → DifferentScores v e.calls.flatten →
      List.Forall₂ (fun a b : Rat => a ≤ b) (e.curve t v) (e'.curve t v) ∧ e.ap t v ≤ e'.ap t v) := by
  have key : ∀ s, e'.gt v = e.gt v ∧ e'.tp t s v + e'.fp t s v = e.tp t s v + e.fp t s v ∧
      e.tp t s v ≤ e'.tp t s v ∧ e'.fp t s v ≤ e.fp t s v ∧ e'.fn t s v ≤ e.fn t s v ∧
      precision (e.tp t s v) (e.fp t s v) ≤ precision (e'.tp t s v) (e'.fp t s v) ∧
      recall (e.tp t s v) (e.gt v) ≤ recall (e'.tp t s v) (e'.gt v) := by
    intro s
    obtain ⟨a1, a2, a3, a4, a5⟩ := C54_exact e hH hD hS t s v
    obtain ⟨b1, b2, b3, b4, b5⟩ := C54_exact e' hH' hD' hS' t s v
    have hgt : e'.gt v = e.gt v := by
      rw [a1, b1]
      unfold gtNumber
      exact (sum_forall₂ h (fun x _ y _ hxy => by rw [hxy.same])).symm
    have hpd : e'.tp t s v + e'.fp t s v = e.tp t s v + e.fp t s v := by
      rw [a2, b2]
      exact (sum_forall₂ h (fun x _ y _ hxy => (hxy.pdCount s v).symm)).symm
    have htp : e.tp t s v ≤ e'.tp t s v := by
      by_cases ht : 0 < t
      · rw [a4 ht, b4 ht]
        exact sum_forall₂_le h (fun x y hxy => hitCount_le (by rw [hxy.same]) (fun g => hxy.hit))
      · rw [a5 (not_lt.1 ht)]
        exact Nat.zero_le _
    have hfp : e'.fp t s v ≤ e.fp t s v := by omega
    refine ⟨hgt, hpd, htp, hfp, by omega, ?_, by rw [hgt]; exact recall_mono htp⟩
    unfold precision
    rw [hpd]
    split
    · exact div_le_div_of_nonneg_right (by exact_mod_cast htp) (by positivity)
    · exact le_refl _
  refine ⟨fun s => ?_, fun ht hd => curve_better e e' hH hH' hS hS' hD ht hd (fun s _ => ⟨s, (key s).2.2.2.2.2.2, (key s).2.2.2.2.2.1⟩)⟩
  obtain ⟨q1, q2, q3, q4, q5, q6, q7⟩ := key s
  exact ⟨q1, q2, q3, q4, q5, q6, q7, f1_mono (precision_nonneg _ _) (recall_nonneg _ _) q6 q7⟩

/-! ## It is not enough that the overlaps grow -/

/-- No true positive is lost when no box overlaps a ground truth less than before. -/
def OverlapsHelp : Prop :=
  ∀ e e' : Built, HistoryOk e.calls.flatten → HistoryOk e'.calls.flatten → SizesOk (Loader.init.addAll e.calls) →
    SizesOk (Loader.init.addAll e'.calls) → DistinctLabels e.calls.flatten → DistinctLabels e'.calls.flatten →
    List.Forall₂ (fun x x' => x'.1 = x.1 ∧ ∀ p g, x.2 p g ≤ x'.2 p g) e.calls.flatten e'.calls.flatten →
    ∀ t s v, e.tp t s v ≤ e'.tp t s v

/-- `tieDet` where the first prediction overlaps the first cat a bit less. -/
def looseDet : Det × (Nat → Nat → Rat) := (tieDet.1, fun p g => if p = 0 then (if g = 0 then 1 / 2 else 3 / 5) else if g = 0 then 9 / 10 else 0)

theorem loose_ok : HistoryOk [looseDet] ∧ DistinctLabels [looseDet] ∧ SizesOk (Loader.init.addAll [[looseDet]]) := by
  refine ⟨⟨?_, ?_, ?_⟩, ?_, ⟨by decide +kernel, by decide +kernel, by decide +kernel, by decide +kernel⟩⟩
  · simp [looseDet, tieDet]
  · simp [looseDet, tieDet]
  · intro x hx p g
    rw [List.mem_singleton.1 hx]
    simp only [looseDet]
    split
    · split <;> norm_num
    · split <;> norm_num
  · unfold DistinctLabels
    decide +kernel

theorem loose_near : Nearest looseDet "cat" 0 1 ∧ Nearest looseDet "cat" 1 0 := by
  refine ⟨⟨⟨⟨"g1", ["cat"], [], ""⟩, rfl, rfl⟩, by norm_num [looseDet, EPSILON], ?_⟩, ⟨⟨⟨"g0", ["cat"], [], ""⟩, rfl, rfl⟩, by norm_num [looseDet, EPSILON], ?_⟩⟩
  · intro g b hb _
    rcases g with _ | _ | g
    · norm_num [looseDet]
    · norm_num [looseDet]
    · simp [looseDet, tieDet] at hb
  · intro g b hb _
    rcases g with _ | _ | g
    · norm_num [looseDet]
    · norm_num [looseDet]
    · simp [looseDet, tieDet] at hb

theorem loose_both : hitCount looseDet (1 / 2) (1 / 2) "cat" = 2 := by
  classical
  have h0 : Hit looseDet (1 / 2) (1 / 2) "cat" 0 :=
    ⟨1, ⟨⟨"p1", ["cat"], [8 / 10], ""⟩, rfl, by simp, by decide +kernel, by decide +kernel⟩, loose_near.2, by norm_num [looseDet]⟩
  have h1 : Hit looseDet (1 / 2) (1 / 2) "cat" 1 :=
    ⟨0, ⟨⟨"p0", ["cat"], [9 / 10], ""⟩, rfl, by simp, by decide +kernel, by decide +kernel⟩, loose_near.1, by norm_num [looseDet]⟩
  unfold hitCount
  have hr : List.range looseDet.1.gts.length = [0, 1] := rfl
  rw [hr]
  simp only [List.filter_cons, h0, h1, decide_true, if_true, List.filter_nil]
  rfl

/-- **C113 needs that the box stays with its object**: two predictions find one cat each; the first box grows to overlap the other cat as
well, no overlap gets smaller, and one of the two true positives is lost. -/
theorem C113_violation : ¬ OverlapsHelp := by
  intro h
  obtain ⟨e, he⟩ := built_exists [[looseDet]]
  obtain ⟨e', he'⟩ := built_exists [[tieDet]]
  obtain ⟨k1, k3, k5⟩ := loose_ok
  obtain ⟨k2, _, k4, _, k6, _⟩ := tie_ok
  have f : e.calls.flatten = [looseDet] := by rw [he]; rfl
  have f' : e'.calls.flatten = [tieDet] := by rw [he']; rfl
  have q := h e e' (f ▸ k1) (f' ▸ k2) (he ▸ k5) (he' ▸ k6) (f ▸ k3) (f' ▸ k4) (by
    rw [f, f']
    refine List.Forall₂.cons ⟨rfl, fun p g => ?_⟩ List.Forall₂.nil
    simp only [looseDet, tieDet]
    split
    · split <;> norm_num
    · split <;> norm_num) (1 / 2) (1 / 2) "cat"
  have a := (C54_exact e (f ▸ k1) (f ▸ k3) (he ▸ k5) (1 / 2) (1 / 2) "cat").2.2.2.1 (by norm_num)
  have b := (C54_exact e' (f' ▸ k2) (f' ▸ k4) (he' ▸ k6) (1 / 2) (1 / 2) "cat").2.2.2.1 (by norm_num)
  rw [f] at a
  rw [f'] at b
  simp only [List.map_cons, List.map_nil, List.sum_cons, List.sum_nil, Nat.add_zero] at a b
  have := tie_first
  have := loose_both
  omega

/-- `looseDet` where the first box is drawn tighter around the second cat. -/
def tightDet : Det × (Nat → Nat → Rat) := (tieDet.1, fun p g => if p = 0 then (if g = 0 then 2 / 5 else if g = 1 then 4 / 5 else 3 / 5) else if g = 0 then 9 / 10 else 0)

/-- The hypotheses hold: at IoU threshold 7/10 the first prediction finds the second cat only after the change. -/
example : List.Forall₂ Tighter [looseDet] [tightDet] ∧ DifferentScores "cat" [looseDet] ∧ HistoryOk [tightDet] ∧ DistinctLabels [tightDet] ∧
    SizesOk (Loader.init.addAll [[tightDet]]) ∧ looseDet.2 0 1 < 7 / 10 ∧ 7 / 10 ≤ tightDet.2 0 1 := by
  refine ⟨List.Forall₂.cons (tighter_of_closer rfl ?_ ?_) List.Forall₂.nil, by unfold DifferentScores; decide +kernel, ⟨?_, ?_, ?_⟩, ?_,
    ⟨by decide +kernel, by decide +kernel, by decide +kernel, by decide +kernel⟩, by norm_num [looseDet], by norm_num [tightDet]⟩
  · rintro v p g ⟨⟨b, hb, hl⟩, he, hbest⟩
    simp only [looseDet, tightDet]
    split
    · rename_i hp
      split
      · rename_i hg
        subst hp
        subst hg
        have hv : ["cat"] = [v] := by
          simp only [looseDet, tieDet, List.getElem?_cons_zero, Option.some.injEq] at hb
          rw [← hl, ← hb]
        have := (hbest 1 ⟨"g1", ["cat"], [], ""⟩ rfl hv).1
        norm_num [looseDet] at this
      · split <;> norm_num
    · exact le_refl _
  · intro p g hno
    simp only [looseDet, tightDet]
    split
    · rename_i hp
      split
      · norm_num
      · rename_i hg
        subst hp
        rcases g with _ | _ | g
        · exact absurd rfl hg
        · exact absurd loose_near.1 (hno "cat")
        · norm_num
    · exact le_refl _
  · simp [tightDet, tieDet]
  · simp [tightDet, tieDet]
  · intro x hx p g
    rw [List.mem_singleton.1 hx]
    simp only [tightDet]
    split
    · split
      · norm_num
      · split <;> norm_num
    · split <;> norm_num
  · unfold DistinctLabels
    decide +kernel

end Verif.Detection
