import Verif.Detection.NewHitProps

/-! # C110: better scores never hurt -/

namespace Verif.Detection

/-- `x'` is `x` with other scores for prediction `p`: ground truths, overlaps, labels and all other predictions stay. -/
structure Rescored (x x' : Det × (Nat → Nat → Rat)) (p : Nat) (a a' : Ann) : Prop where
  gts : x'.1.gts = x.1.gts
  iou : x'.2 = x.2
  old : x.1.pds[p]? = some a
  new : x'.1.pds = x.1.pds.set p a'
  labels : a'.labels = a.labels

/-- One detection of the dataset is changed, the others stay. -/
def Changed (H H' : History) (x x' : Det × (Nat → Nat → Rat)) : Prop := ∃ pre post, H = pre ++ x :: post ∧ H' = pre ++ x' :: post

/-- Prediction `p` finds a ground truth of the label that no other prediction finds. -/
def OnlyFinder (x : Det × (Nat → Nat → Rat)) (t : Rat) (v : String) (p : Nat) : Prop :=
  ∃ g, Nearest x v p g ∧ t ≤ x.2 p g ∧ ∀ i b, i ≠ p → x.1.pds[i]? = some b → v ∈ b.labels → Nearest x v i g → x.2 i g < t

/-- Prediction `p` finds no ground truth of the label. -/
def FindsNone (x : Det × (Nat → Nat → Rat)) (t : Rat) (v : String) (p : Nat) : Prop := ∀ g, Nearest x v p g → x.2 p g < t

section
variable {x x' : Det × (Nat → Nat → Rat)} {p : Nat} {a a' : Ann}

theorem Rescored.at (h : Rescored x x' p a a') : x'.1.pds[p]? = some a' := by
  rw [h.new]
  exact List.getElem?_set_self (List.getElem?_eq_some_iff.1 h.old).1

theorem Rescored.other (h : Rescored x x' p a a') {i : Nat} (hi : i ≠ p) : x'.1.pds[i]? = x.1.pds[i]? := by
  rw [h.new]
  exact List.getElem?_set_ne (Ne.symm hi)

theorem Rescored.length (h : Rescored x x' p a a') : x'.1.pds.length = x.1.pds.length := by
  rw [h.new, List.length_set]

theorem Rescored.nearest (h : Rescored x x' p a a') (v : String) (i g : Nat) : Nearest x' v i g ↔ Nearest x v i g :=
  nearest_moved h.gts (fun g => by rw [h.iou])

theorem Rescored.touches (h : Rescored x x' p a a') (v : String) (i : Nat) : Touches x' v i ↔ Touches x v i :=
  touches_moved h.gts (fun g => by rw [h.iou])

theorem Rescored.passing_other (h : Rescored x x' p a a') {i : Nat} (hi : i ≠ p) (s : Rat) (v : String) : Passing x' s v i ↔ Passing x s v i := by
  unfold Passing
  rw [h.other hi]

/-- Whether a passing prediction is counted does not depend on its score. -/
theorem Rescored.counted (h : Rescored x x' p a a') (s : Rat) (v : String) (i : Nat) :
    Counted x' s v i ↔ Passing x' s v i ∧ (Touches x v i ∨ ∀ b, x.1.pds[i]? = some b → ∀ w ∈ b.labels, ¬ Touches x w i) := by
  unfold Counted
  simp only [h.touches]
  refine and_congr_right (fun _ => or_congr_right ?_)
  by_cases hi : i = p
  · subst hi
    rw [h.at, h.old]
    simp only [Option.some.injEq, forall_eq', h.labels]
  · rw [h.other hi]

theorem Rescored.passing_iff (h : Rescored x x' p a a') (s : Rat) (v : String) :
    (Passing x s v p ↔ v ∈ a.labels ∧ s ≤ scoreOf v a ∧ EPSILON < scoreOf v a) ∧
    (Passing x' s v p ↔ v ∈ a.labels ∧ s ≤ scoreOf v a' ∧ EPSILON < scoreOf v a') := by
  unfold Passing
  rw [h.old, h.at]
  simp [h.labels]

/-- Nothing changes at a score threshold that the prediction passes before and after, or not at all. -/
theorem Rescored.same (h : Rescored x x' p a a') {s : Rat} {v : String} (hp : Passing x' s v p ↔ Passing x s v p) (t : Rat) :
    hitCount x' t s v = hitCount x t s v ∧ pdCount x' s v = pdCount x s v := by
  have hall : ∀ i, Passing x' s v i ↔ Passing x s v i := by
    intro i
    by_cases hi : i = p
    · rw [hi]; exact hp
    · exact h.passing_other hi s v
  constructor
  · unfold hitCount
    rw [h.gts]
    congr 1
    apply List.filter_congr
    intro g _
    rw [decide_eq_decide]
    unfold Hit
    simp only [hall, h.nearest, h.iou]
  · unfold pdCount
    rw [h.length]
    congr 1
    apply List.filter_congr
    intro i _
    rw [decide_eq_decide, h.counted, hall]
    rfl

/-- A raised score may turn a prediction into a passing one. -/
theorem Rescored.hit_mono (h : Rescored x x' p a a') {s : Rat} {v : String} (hp : Passing x s v p → Passing x' s v p) (t : Rat) :
    hitCount x t s v ≤ hitCount x' t s v := by
  apply hitCount_le h.gts
  rintro g ⟨i, hi, hn, ht⟩
  refine ⟨i, ?_, (h.nearest v i g).2 hn, by rw [h.iou]; exact ht⟩
  by_cases he : i = p
  · subst he
    exact hp hi
  · exact (h.passing_other he s v).2 hi

theorem Rescored.only_finder (h : Rescored x x' p a a') {t s : Rat} {v : String} (hf : OnlyFinder x t v p) (h0 : ¬ Passing x s v p) (h1 : Passing x' s v p) :
    hitCount x' t s v = hitCount x t s v + 1 ∧ pdCount x' s v = pdCount x s v + 1 := by
  classical
  obtain ⟨g, hn, ht, hno⟩ := hf
  have hlt : g < x.1.gts.length := by
    obtain ⟨⟨b, hb, _⟩, _⟩ := hn
    exact (List.getElem?_eq_some_iff.1 hb).1
  have hplt : p < x.1.pds.length := (List.getElem?_eq_some_iff.1 h.old).1
  have htouch : Touches x v p := by
    obtain ⟨⟨b, hb, hl⟩, he, _⟩ := hn
    exact ⟨g, b, hb, hl, he⟩
  have nohit : ¬ Hit x t s v g := by
    rintro ⟨i, hi, hn', ht'⟩
    by_cases he : i = p
    · exact h0 (he ▸ hi)
    · obtain ⟨b, hb, hv, _⟩ := hi
      exact absurd ht' (not_le.2 (hno i b he hb hv hn'))
  constructor
  · unfold hitCount
    rw [h.gts]
    refine length_filter_one_more hlt (decide_eq_false nohit) ?_
    intro i
    rw [Bool.eq_iff_iff, Bool.or_eq_true, decide_eq_true_eq, decide_eq_true_eq, decide_eq_true_eq]
    constructor
    · rintro ⟨j, hj, hn', ht'⟩
      rw [h.nearest] at hn'
      rw [h.iou] at ht'
      by_cases he : j = p
      · subst he
        exact Or.inr (nearest_unique hn' hn)
      · exact Or.inl ⟨j, (h.passing_other he s v).1 hj, hn', ht'⟩
    · rintro (⟨j, hj, hn', ht'⟩ | rfl)
      · have he : j ≠ p := fun e => h0 (e ▸ hj)
        exact ⟨j, (h.passing_other he s v).2 hj, (h.nearest v j i).2 hn', by rw [h.iou]; exact ht'⟩
      · exact ⟨p, h1, (h.nearest v p i).2 hn, by rw [h.iou]; exact ht⟩
  · unfold pdCount
    rw [h.length]
    refine length_filter_one_more hplt (decide_eq_false (fun hc => h0 hc.1)) ?_
    intro i
    rw [Bool.eq_iff_iff, Bool.or_eq_true, decide_eq_true_eq, decide_eq_true_eq, decide_eq_true_eq, h.counted]
    constructor
    · rintro ⟨hi, hc⟩
      by_cases he : i = p
      · exact Or.inr he
      · exact Or.inl ⟨(h.passing_other he s v).1 hi, hc⟩
    · rintro (⟨hi, hc⟩ | rfl)
      · have he : i ≠ p := fun e => h0 (e ▸ hi)
        exact ⟨(h.passing_other he s v).2 hi, hc⟩
      · exact ⟨h1, Or.inl htouch⟩

theorem Rescored.finds_none (h : Rescored x x' p a a') {t s : Rat} {v : String} (hf : FindsNone x t v p) (hp : Passing x' s v p → Passing x s v p) :
    hitCount x' t s v = hitCount x t s v ∧ pdCount x' s v ≤ pdCount x s v := by
  classical
  constructor
  · apply Nat.le_antisymm
    · apply hitCount_le h.gts.symm
      rintro g ⟨i, hi, hn, ht⟩
      rw [h.nearest] at hn
      rw [h.iou] at ht
      refine ⟨i, ?_, hn, ht⟩
      by_cases he : i = p
      · subst he
        exact hp hi
      · exact (h.passing_other he s v).1 hi
    · apply hitCount_le h.gts
      rintro g ⟨i, hi, hn, ht⟩
      have he : i ≠ p := by
        rintro rfl
        exact absurd ht (not_le.2 (hf g hn))
      exact ⟨i, (h.passing_other he s v).2 hi, (h.nearest v i g).2 hn, by rw [h.iou]; exact ht⟩
  · unfold pdCount
    rw [h.length, ← List.countP_eq_length_filter, ← List.countP_eq_length_filter]
    apply List.countP_mono_left
    intro i _ hi
    rw [decide_eq_true_eq, h.counted] at hi
    rw [decide_eq_true_eq]
    refine ⟨?_, hi.2⟩
    by_cases he : i = p
    · subst he
      exact hp hi.1
    · exact (h.passing_other he s v).1 hi.1

end

theorem Changed.sum {H H' : History} {x x' : Det × (Nat → Nat → Rat)} (h : Changed H H' x x') (f : Det × (Nat → Nat → Rat) → Nat) :
    ∃ r, (H.map f).sum = r + f x ∧ (H'.map f).sum = r + f x' := by
  obtain ⟨pre, post, rfl, rfl⟩ := h
  refine ⟨(pre.map f).sum + (post.map f).sum, ?_, ?_⟩
  · simp only [List.map_append, List.map_cons, List.sum_append, List.sum_cons]
    omega
  · simp only [List.map_append, List.map_cons, List.sum_append, List.sum_cons]
    omega

section
variable (e e' : Built) (hH : HistoryOk e.calls.flatten) (hH' : HistoryOk e'.calls.flatten) (hS : SizesOk (Loader.init.addAll e.calls))
  (hS' : SizesOk (Loader.init.addAll e'.calls)) (hD : DistinctLabels e.calls.flatten) (hD' : DistinctLabels e'.calls.flatten)
  {x x' : Det × (Nat → Nat → Rat)} (hc : Changed e.calls.flatten e'.calls.flatten x x') {p : Nat} {a a' : Ann} (h : Rescored x x' p a a')
include hH hH' hS hS' hD hD' hc h

/-- **C110 (detection, more confidence).** A prediction gives a label a higher score: neither the true positives nor the recall of
the label go down at any thresholds, and the ground truths stay. -/
theorem C110_confident {v : String} (hs : scoreOf v a ≤ scoreOf v a') {t : Rat} (ht : 0 < t) (s : Rat) :
    e'.gt v = e.gt v ∧ e.tp t s v ≤ e'.tp t s v ∧ e'.fn t s v ≤ e.fn t s v ∧ recall (e.tp t s v) (e.gt v) ≤ recall (e'.tp t s v) (e'.gt v) := by
  obtain ⟨a1, _, a3, a4, _⟩ := C54_exact e hH hD hS t s v
  obtain ⟨b1, _, b3, b4, _⟩ := C54_exact e' hH' hD' hS' t s v
  have hgt : e'.gt v = e.gt v := by
    rw [a1, b1]
    obtain ⟨pre, post, e1, e2⟩ := hc
    rw [e1, e2]
    unfold gtNumber
    simp only [List.map_append, List.map_cons, h.gts]
  have htp : e.tp t s v ≤ e'.tp t s v := by
    obtain ⟨r, r1, r2⟩ := hc.sum (fun x => hitCount x t s v)
    rw [a4 ht, b4 ht, r1, r2]
    have := h.hit_mono (s := s) (v := v) (fun hp => by
      obtain ⟨q1, q2⟩ := h.passing_iff s v
      obtain ⟨c1, c2, c3⟩ := q1.1 hp
      exact q2.2 ⟨c1, le_trans c2 hs, lt_of_lt_of_le c3 hs⟩) t
    omega
  refine ⟨hgt, htp, by omega, ?_⟩
  rw [hgt]
  exact recall_mono htp

/-- The change makes the report of the label better at every threshold. -/
theorem rescored_counts {v : String} {t : Rat} (ht : 0 < t)
    (hb : (scoreOf v a ≤ scoreOf v a' ∧ OnlyFinder x t v p) ∨ (scoreOf v a' ≤ scoreOf v a ∧ FindsNone x t v p)) (s : Rat) :
    e.tp t s v ≤ e'.tp t s v ∧ e'.fp t s v ≤ e.fp t s v := by
  obtain ⟨_, a2, _, a4, _⟩ := C54_exact e hH hD hS t s v
  obtain ⟨_, b2, _, b4, _⟩ := C54_exact e' hH' hD' hS' t s v
  obtain ⟨r, r1, r2⟩ := hc.sum (fun x => hitCount x t s v)
  obtain ⟨k, k1, k2⟩ := hc.sum (fun x => pdCount x s v)
  rw [a4 ht, r1] at a2 ⊢
  rw [b4 ht, r2] at b2 ⊢
  rw [k1] at a2
  rw [k2] at b2
  obtain ⟨q1, q2⟩ := h.passing_iff s v
  rcases hb with ⟨hs, hf⟩ | ⟨hs, hf⟩
  · by_cases hp : Passing x' s v p ↔ Passing x s v p
    · obtain ⟨c1, c2⟩ := h.same hp t
      omega
    · have hup : Passing x s v p → Passing x' s v p := fun hp => by
        obtain ⟨c1, c2, c3⟩ := q1.1 hp
        exact q2.2 ⟨c1, le_trans c2 hs, lt_of_lt_of_le c3 hs⟩
      have h0 : ¬ Passing x s v p := fun h0 => hp ⟨fun _ => h0, hup⟩
      have h1 : Passing x' s v p := by
        by_contra h1
        exact hp ⟨fun z => absurd z h1, hup⟩
      obtain ⟨c1, c2⟩ := h.only_finder hf h0 h1
      omega
  · obtain ⟨c1, c2⟩ := h.finds_none (s := s) hf (fun hp => by
      obtain ⟨c1, c2, c3⟩ := q2.1 hp
      exact q1.2 ⟨c1, le_trans c2 hs, lt_of_lt_of_le c3 hs⟩)
    omega

/-- **C110 (detection).** The only prediction that finds an object gives its label a higher score, or a prediction that finds no object of a
label gives the label a lower score: at all score thresholds the true positives do not go down, the false positives do not go up, and
neither precision nor recall goes down; no value of the precision-recall curve goes down and not the average precision, if no two
predictions give the label the same score. -/
theorem C110_detection {v : String} {t : Rat} (ht : 0 < t)
    (hb : (scoreOf v a ≤ scoreOf v a' ∧ OnlyFinder x t v p) ∨ (scoreOf v a' ≤ scoreOf v a ∧ FindsNone x t v p)) :
    (∀ s, e.tp t s v ≤ e'.tp t s v ∧ e'.fp t s v ≤ e.fp t s v ∧
      precision (e.tp t s v) (e.fp t s v) ≤ precision (e'.tp t s v) (e'.fp t s v) ∧
      recall (e.tp t s v) (e.gt v) ≤ recall (e'.tp t s v) (e'.gt v)) ∧
    (DifferentScores v e.calls.flatten →
      List.Forall₂ (fun a b : Rat => a ≤ b) (e.curve t v) (e'.curve t v) ∧ e.ap t v ≤ e'.ap t v) := by
  have hgt : e'.gt v = e.gt v := by
    obtain ⟨a1, _⟩ := C54_exact e hH hD hS t 0 v
    obtain ⟨b1, _⟩ := C54_exact e' hH' hD' hS' t 0 v
    rw [a1, b1]
    obtain ⟨pre, post, e1, e2⟩ := hc
    rw [e1, e2]
    unfold gtNumber
    simp only [List.map_append, List.map_cons, h.gts]
  have key : ∀ s, e.tp t s v ≤ e'.tp t s v ∧ e'.fp t s v ≤ e.fp t s v ∧
      precision (e.tp t s v) (e.fp t s v) ≤ precision (e'.tp t s v) (e'.fp t s v) ∧
      recall (e.tp t s v) (e.gt v) ≤ recall (e'.tp t s v) (e'.gt v) := by
    intro s
    obtain ⟨h1, h2⟩ := rescored_counts e e' hH hH' hS hS' hD hD' hc h ht hb s
    refine ⟨h1, h2, ?_, by rw [hgt]; exact recall_mono h1⟩
    have g1 : precision (e.tp t s v) (e.fp t s v) ≤ precision (e'.tp t s v) (e.fp t s v) := by
      obtain ⟨d, hd⟩ := Nat.exists_eq_add_of_le h1
      rw [hd]
      clear * -
      induction d with
      | zero => exact le_refl _
      | succ d ih => exact le_trans ih (precision_more _ _)
    have g2 : precision (e'.tp t s v) (e.fp t s v) ≤ precision (e'.tp t s v) (e'.fp t s v) := by
      obtain ⟨d, hd⟩ := Nat.exists_eq_add_of_le h2
      rw [hd]
      exact precision_added
    exact le_trans g1 g2
  refine ⟨key, fun hd => curve_better e e' hH hH' hS hS' hD ht hd (fun s _ => ⟨s, (key s).2.2.2, (key s).2.2.1⟩)⟩

end

/-- `newDet` with a higher score for the only prediction of the second cat. -/
def surerDet : Det × (Nat → Nat → Rat) := ({ newDet.1 with pds := newDet.1.pds.set 2 ⟨"p2", ["cat"], [95 / 100], ""⟩ }, newDet.2)

/-- `newDet` with a lower score for the first prediction, which overlaps the cats with IoU 3/5 only. -/
def doubtDet : Det × (Nat → Nat → Rat) := ({ newDet.1 with pds := newDet.1.pds.set 0 ⟨"p0", ["cat"], [1 / 10], ""⟩ }, newDet.2)

/-- The hypotheses hold: the third prediction is the only one to find the second cat, and gets a higher score; at IoU threshold 7/10
the first prediction finds none, and gets a lower score. -/
example : Changed [newDet] [surerDet] newDet surerDet ∧ Rescored newDet surerDet 2 ⟨"p2", ["cat"], [7 / 10], ""⟩ ⟨"p2", ["cat"], [95 / 100], ""⟩ ∧
    scoreOf "cat" ⟨"p2", ["cat"], [7 / 10], ""⟩ < scoreOf "cat" ⟨"p2", ["cat"], [95 / 100], ""⟩ ∧ OnlyFinder newDet (1 / 2) "cat" 2 ∧
    Rescored newDet doubtDet 0 ⟨"p0", ["cat"], [9 / 10], ""⟩ ⟨"p0", ["cat"], [1 / 10], ""⟩ ∧ FindsNone newDet (7 / 10) "cat" 0 ∧
    DifferentScores "cat" [newDet] := by
  refine ⟨⟨[], [], rfl, rfl⟩, ⟨rfl, rfl, rfl, rfl, rfl⟩, by decide +kernel, ⟨1, ?_, by norm_num [newDet], ?_⟩, ⟨rfl, rfl, rfl, rfl, rfl⟩, ?_,
    by unfold DifferentScores; decide +kernel⟩
  · refine ⟨⟨⟨"g1", ["cat"], [], ""⟩, rfl, rfl⟩, by norm_num [newDet, EPSILON], ?_⟩
    intro g b hb _
    rcases g with _ | _ | g
    · norm_num [newDet]
    · norm_num [newDet]
    · simp [newDet, tieDet] at hb
  · rintro i b hi hb _ ⟨_, he, hn⟩
    rcases i with _ | _ | _ | i
    · have := (hn 0 ⟨"g0", ["cat"], [], ""⟩ rfl rfl).2 (by norm_num)
      norm_num [newDet] at this
    · norm_num [newDet, EPSILON] at he
    · exact absurd rfl hi
    · simp [newDet, tieDet] at hb
  · intro g _
    norm_num [newDet]

end Verif.Detection
