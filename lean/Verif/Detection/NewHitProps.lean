import Verif.Detection.CurveProps

/-! # C106: a prediction that finds a new object -/

namespace Verif.Detection

/-- The added prediction finds a ground truth that no other prediction finds at any score threshold. -/
def FindsNew (x x' : Det × (Nat → Nat → Rat)) (t : Rat) (v : String) : Prop :=
  ∃ g, Nearest x' v x.1.pds.length g ∧ t ≤ x'.2 x.1.pds.length g ∧ ∀ s, ¬ Hit x t s v g

theorem length_filter_one_more {n g : Nat} (hg : g < n) {p q : Nat → Bool} (hp : p g = false) (hq : ∀ i, q i = (p i || decide (i = g))) :
    ((List.range n).filter q).length = ((List.range n).filter p).length + 1 := by
  induction n with
  | zero => omega
  | succ n ih =>
    rw [List.range_succ, List.filter_append, List.length_append, List.filter_append, List.length_append]
    rcases Nat.lt_or_ge g n with h | h
    · rw [ih h]
      have : q n = p n := by rw [hq, decide_eq_false (by omega), Bool.or_false]
      rw [List.filter_singleton, List.filter_singleton, this]
      omega
    · have e : g = n := by omega
      subst e
      have hsame : (List.range g).filter q = (List.range g).filter p := by
        apply List.filter_congr
        intro i hi
        rw [hq, decide_eq_false (by have := List.mem_range.1 hi; omega), Bool.or_false]
      rw [hsame, List.filter_singleton, List.filter_singleton, hq, hp]
      simp

theorem hitCount_new {x x' : Det × (Nat → Nat → Rat)} {q : Ann} (h : AddsOne x x' q) {t s : Rat} {v : String}
    (hp : Passing x' s v x.1.pds.length) (hf : FindsNew x x' t v) : hitCount x' t s v = hitCount x t s v + 1 := by
  classical
  obtain ⟨g, hn, ht, hno⟩ := hf
  have hlt : g < x.1.gts.length := by
    obtain ⟨⟨b, hb, _⟩, _⟩ := hn
    rw [h.gts] at hb
    exact (List.getElem?_eq_some_iff.1 hb).1
  unfold hitCount
  rw [h.gts]
  refine length_filter_one_more hlt (decide_eq_false (hno s)) ?_
  intro i
  rw [Bool.eq_iff_iff, Bool.or_eq_true, decide_eq_true_eq, decide_eq_true_eq, decide_eq_true_eq]
  constructor
  · rintro ⟨p, ⟨a, ha, hp'⟩, hn', ht'⟩
    rcases h.getElem? ha with ⟨hl, ha0⟩ | ⟨rfl, rfl⟩
    · have hi := h.iou p hl
      exact Or.inl ⟨p, ⟨a, ha0, hp'⟩, (nearest_moved h.gts hi).1 hn', by rw [← hi]; exact ht'⟩
    · exact Or.inr (nearest_unique hn' hn)
  · rintro (hh | rfl)
    · exact h.extends.hit hh
    · exact ⟨_, hp, hn, ht⟩

theorem precision_more (tp fp : Nat) : precision tp fp ≤ precision (tp + 1) fp := by
  unfold precision
  rw [if_pos (by omega : tp + 1 + fp > 0)]
  have h1 : (0 : Rat) < ((tp + 1 + fp : Nat) : Rat) := by exact_mod_cast (by omega : 0 < tp + 1 + fp)
  by_cases h : tp + fp > 0
  · rw [if_pos h]
    have h0 : (0 : Rat) < ((tp + fp : Nat) : Rat) := by exact_mod_cast h
    rw [div_le_div_iff₀ h0 h1]
    have : tp * (tp + 1 + fp) ≤ (tp + 1) * (tp + fp) := by
      calc tp * (tp + 1 + fp) = tp * (tp + fp) + tp := by ring
        _ ≤ tp * (tp + fp) + (tp + fp) := by omega
        _ = (tp + 1) * (tp + fp) := by ring
    exact_mod_cast this
  · rw [if_neg h]
    exact div_nonneg (Nat.cast_nonneg _) h1.le

open Classical in
/-- **C106 (counts).** A prediction is added to a detection that finds, at the IoU threshold, a ground truth of the label that no other
prediction finds: at every score threshold that it passes there is one true positive more and one false negative less, at the others
they stay; the false positives stay, and neither precision nor recall of the label goes down. -/
theorem C106_counts (e e' : Built) (hH : HistoryOk e.calls.flatten) (hH' : HistoryOk e'.calls.flatten) (hS : SizesOk (Loader.init.addAll e.calls))
    (hS' : SizesOk (Loader.init.addAll e'.calls)) (hD : DistinctLabels e.calls.flatten) (hD' : DistinctLabels e'.calls.flatten)
    {x x' : Det × (Nat → Nat → Rat)} {q : Ann} (h : Adds e.calls.flatten e'.calls.flatten x x' q) {t : Rat} (ht : 0 < t) {v : String}
    (hf : FindsNew x x' t v) (s : Rat) :
    e'.gt v = e.gt v ∧ e'.tp t s v = e.tp t s v + (if Passing x' s v x.1.pds.length then 1 else 0) ∧
    e'.fn t s v + (if Passing x' s v x.1.pds.length then 1 else 0) = e.fn t s v ∧ e'.fp t s v = e.fp t s v ∧
    precision (e.tp t s v) (e.fp t s v) ≤ precision (e'.tp t s v) (e'.fp t s v) ∧
    recall (e.tp t s v) (e.gt v) ≤ recall (e'.tp t s v) (e'.gt v) := by
  obtain ⟨a1, a2, a3, a4, _⟩ := C54_exact e hH hD hS t s v
  obtain ⟨b1, b2, b3, b4, _⟩ := C54_exact e' hH' hD' hS' t s v
  have h0 := h
  obtain ⟨h1, pre, post, e1, e2⟩ := h
  have hgt : e'.gt v = e.gt v := by
    rw [a1, b1, e1, e2]
    unfold gtNumber
    simp only [List.map_append, List.map_cons, h1.gts]
  by_cases hp : Passing x' s v x.1.pds.length
  · rw [if_pos hp]
    have hc : Counted x' s v x.1.pds.length := by
      obtain ⟨g, ⟨⟨b, hb, hl⟩, he, _⟩, _⟩ := hf
      exact ⟨hp, Or.inl ⟨g, b, hb, hl, he⟩⟩
    have htp : e'.tp t s v = e.tp t s v + 1 := by
      rw [a4 ht, b4 ht, e1, e2]
      simp only [List.map_append, List.map_cons, List.sum_append, List.sum_cons, hitCount_new h1 hp hf]
      omega
    have hpd : e'.tp t s v + e'.fp t s v = e.tp t s v + e.fp t s v + 1 := by
      rw [a2, b2, e1, e2]
      simp only [List.map_append, List.map_cons, List.sum_append, List.sum_cons, h1.pdCount s v, if_pos hc]
      omega
    have hfp : e'.fp t s v = e.fp t s v := by omega
    refine ⟨hgt, htp, by omega, hfp, ?_, ?_⟩
    · rw [htp, hfp]; exact precision_more _ _
    · rw [htp, hgt]; exact recall_mono (Nat.le_succ _)
  · obtain ⟨q1, q2, q3, _⟩ := C90_one_more e e' hH hH' hS hS' hD hD' h0 t s v (fun hh => absurd hh hp)
    have hfp : e'.fp t s v = e.fp t s v := by rw [q3, if_neg (fun hh => hp hh.1), Nat.add_zero]
    rw [if_neg hp, Nat.add_zero, Nat.add_zero]
    refine ⟨hgt, q1, q2, hfp, le_of_eq ?_, le_of_eq ?_⟩
    · rw [q1, hfp]
    · rw [q1, hgt]

/-- **C106 (average precision).** With the prediction added no value of the precision-recall curve of the label goes down, and not the
average precision, if no two predictions of the dataset give the label the same score. -/
theorem C106_ap (e e' : Built) (hH : HistoryOk e.calls.flatten) (hH' : HistoryOk e'.calls.flatten) (hS : SizesOk (Loader.init.addAll e.calls))
    (hS' : SizesOk (Loader.init.addAll e'.calls)) (hD : DistinctLabels e.calls.flatten) (hD' : DistinctLabels e'.calls.flatten)
    {x x' : Det × (Nat → Nat → Rat)} {q : Ann} (h : Adds e.calls.flatten e'.calls.flatten x x' q) {t : Rat} (ht : 0 < t) {v : String}
    (hd : DifferentScores v e.calls.flatten) (hf : FindsNew x x' t v) :
    List.Forall₂ (fun a b : Rat => a ≤ b) (e.curve t v) (e'.curve t v) ∧ e.ap t v ≤ e'.ap t v := by
  apply curve_better e e' hH hH' hS hS' hD ht hd
  intro s _
  obtain ⟨_, _, _, _, q5, q6⟩ := C106_counts e e' hH hH' hS hS' hD hD' h ht hf s
  exact ⟨s, q6, q5⟩

/-- `tieDet` with a prediction of the second cat, which no other prediction finds. -/
def newDet : Det × (Nat → Nat → Rat) :=
  (⟨"d", tieDet.1.gts, tieDet.1.pds ++ [⟨"p2", ["cat"], [7 / 10], ""⟩], ""⟩,
    fun p g => if p = 0 then 3 / 5 else if p = 1 then (if g = 0 then 9 / 10 else 0) else if g = 1 then 7 / 10 else 0)

/-- The hypotheses hold: the third prediction finds the second cat at IoU threshold 1/2. -/
example : Adds [tieDet] [newDet] tieDet newDet ⟨"p2", ["cat"], [7 / 10], ""⟩ ∧ FindsNew tieDet newDet (1 / 2) "cat" ∧
    DifferentScores "cat" [tieDet] ∧ DistinctLabels [newDet] ∧ HistoryOk [newDet] ∧ SizesOk (Loader.init.addAll [[newDet]]) ∧
    Passing newDet (1 / 2) "cat" 2 := by
  have hnear : Nearest newDet "cat" 2 1 := by
    refine ⟨⟨⟨"g1", ["cat"], [], ""⟩, rfl, rfl⟩, by norm_num [newDet, EPSILON], ?_⟩
    intro g b hb _
    rcases g with _ | _ | g
    · norm_num [newDet]
    · norm_num [newDet]
    · simp [newDet, tieDet] at hb
  refine ⟨⟨⟨rfl, rfl, ?_⟩, [], [], rfl, rfl⟩, ⟨1, hnear, by norm_num [newDet, tieDet], ?_⟩, by unfold DifferentScores; decide +kernel, ?_, ⟨?_, ?_, ?_⟩,
    ⟨by decide +kernel, by decide +kernel, by decide +kernel, by decide +kernel⟩, ⟨⟨"p2", ["cat"], [7 / 10], ""⟩, rfl, by simp, by decide +kernel, by decide +kernel⟩⟩
  · intro p hp g
    have hlt : p < 2 := hp
    rcases p with _ | _ | p
    · simp [tieDet, newDet]
    · simp [tieDet, newDet]
    · omega
  · rintro s ⟨p, ⟨a, ha, _⟩, ⟨_, he, hn⟩, _⟩
    rcases p with _ | _ | p
    · have := (hn 0 ⟨"g0", ["cat"], [], ""⟩ rfl rfl).2 (by norm_num)
      norm_num [tieDet] at this
    · norm_num [tieDet, EPSILON] at he
    · simp [tieDet] at ha
  · intro x hx a ha
    rw [List.mem_singleton.1 hx] at ha
    simp only [newDet, tieDet, List.cons_append, List.nil_append, List.mem_cons, List.not_mem_nil, or_false] at ha
    rcases ha with rfl | rfl | rfl <;> simp
  · simp [newDet, tieDet]
  · simp [newDet, tieDet]
  · intro x hx p g
    rw [List.mem_singleton.1 hx]
    simp only [newDet]
    split
    · norm_num
    · split
      · split <;> norm_num
      · split <;> norm_num

end Verif.Detection
