import Verif.Detection.WithoutProps
import Verif.Detection.AddedProps

/-! # C133: scores and IoUs of detections matter only through the thresholds -/

namespace Verif.Detection

/-- The same ground truths, prediction labels and IoUs; for every label the score of a prediction reaches the threshold in both or in
neither. The scores themselves are free. -/
structure SameSide (s : Rat) (x x' : Det × (Nat → Nat → Rat)) : Prop where
  gts : x'.1.gts = x.1.gts
  iou : x'.2 = x.2
  pds : List.Forall₂ (fun a a' => a'.labels = a.labels ∧ ∀ v ∈ a.labels, s ≤ scoreOf v a' ↔ s ≤ scoreOf v a) x.1.pds x'.1.pds

/-- What the counts need of two detections to be the same. -/
structure Agrees (t t' s s' : Rat) (x x' : Det × (Nat → Nat → Rat)) : Prop where
  gts : x'.1.gts = x.1.gts
  iou : x'.2 = x.2
  labels : ∀ p : Nat, x'.1.pds[p]?.map Ann.labels = x.1.pds[p]?.map Ann.labels
  length : x'.1.pds.length = x.1.pds.length
  passing : ∀ v p, Passing x' s' v p ↔ Passing x s v p
  reach : ∀ p g, p < x.1.pds.length → g < x.1.gts.length → (t' ≤ x.2 p g ↔ t ≤ x.2 p g)

section
variable {t t' s s' : Rat} {x x' : Det × (Nat → Nat → Rat)} (h : Agrees t t' s s' x x')
include h

theorem Agrees.touches (v : String) (p : Nat) : Touches x' v p ↔ Touches x v p := by
  unfold Touches
  rw [h.gts, h.iou]

theorem Agrees.counted (v : String) (p : Nat) : Counted x' s' v p ↔ Counted x s v p := by
  unfold Counted
  rw [h.passing, h.touches]
  refine and_congr_right (fun _ => or_congr Iff.rfl ?_)
  simp only [h.touches]
  have hl := h.labels p
  constructor
  · intro H a ha w hw
    rw [ha, Option.map_some, Option.map_eq_some_iff] at hl
    obtain ⟨a', ha', e⟩ := hl
    exact H a' ha' w (e ▸ hw)
  · intro H a ha w hw
    rw [ha, Option.map_some, eq_comm, Option.map_eq_some_iff] at hl
    obtain ⟨a', ha', e⟩ := hl
    exact H a' ha' w (e ▸ hw)

theorem Agrees.hit (v : String) (g : Nat) : Hit x' t' s' v g ↔ Hit x t s v g := by
  unfold Hit Nearest
  rw [h.gts, h.iou]
  refine exists_congr (fun p => ?_)
  rw [h.passing]
  refine and_congr_right (fun hp => and_congr_right (fun hn => ?_))
  obtain ⟨a, ha, _⟩ := hp
  obtain ⟨⟨b, hb, _⟩, _⟩ := hn
  exact h.reach p g (List.getElem?_eq_some_iff.1 ha).1 (List.getElem?_eq_some_iff.1 hb).1

theorem Agrees.counts (v : String) : pdCount x' s' v = pdCount x s v ∧ hitCount x' t' s' v = hitCount x t s v := by
  classical
  unfold pdCount hitCount
  rw [h.length, h.gts]
  constructor
  · simp only [h.counted]
  · simp only [h.hit]

end

theorem sum_agrees {R : Det × (Nat → Nat → Rat) → Det × (Nat → Nat → Rat) → Prop} {H H' : History} (h : List.Forall₂ R H H')
    {f g : Det × (Nat → Nat → Rat) → Nat} (hfg : ∀ x x', R x x' → g x' = f x) : (H'.map g).sum = (H.map f).sum := by
  induction h with
  | nil => rfl
  | cons hc _ ih => simp only [List.map_cons, List.sum_cons, ih, hfg _ _ hc]

theorem counts_of_agrees {e e' : Built} {t t' s s' : Rat} {H : History} (hp : e'.calls.flatten.Perm H)
    (h : List.Forall₂ (Agrees t t' s s') e.calls.flatten H) (htt : 0 < t ↔ 0 < t')
    (hH : HistoryOk e.calls.flatten) (hD : DistinctLabels e.calls.flatten) (hS : SizesOk (Loader.init.addAll e.calls))
    (hH' : HistoryOk e'.calls.flatten) (hD' : DistinctLabels e'.calls.flatten) (hS' : SizesOk (Loader.init.addAll e'.calls)) (v : String) :
    e'.gt v = e.gt v ∧ e'.tp t' s' v = e.tp t s v ∧ e'.fp t' s' v = e.fp t s v ∧ e'.fn t' s' v = e.fn t s v := by
  obtain ⟨a1, a2, a3, a4, a5⟩ := C54_exact e hH hD hS t s v
  obtain ⟨b1, b2, b3, b4, b5⟩ := C54_exact e' hH' hD' hS' t' s' v
  have hg : e'.gt v = e.gt v := by
    rw [a1, b1]
    unfold gtNumber
    rw [(hp.map _).sum_eq]
    exact sum_agrees h (fun x x' hx => by rw [hx.gts])
  have hn : e'.tp t' s' v + e'.fp t' s' v = e.tp t s v + e.fp t s v := by
    rw [a2, b2, (hp.map _).sum_eq]
    exact sum_agrees h (fun x x' hx => (hx.counts v).1)
  have ht : e'.tp t' s' v = e.tp t s v := by
    by_cases h0 : 0 < t
    · rw [a4 h0, b4 (htt.1 h0), (hp.map _).sum_eq]
      exact sum_agrees h (fun x x' hx => (hx.counts v).2)
    · rw [a5 (not_lt.1 h0), b5 (not_lt.1 (fun h1 => h0 (htt.2 h1)))]
  refine ⟨hg, ht, ?_, ?_⟩
  · omega
  · omega

theorem SameSide.agrees {t s : Rat} (hs : EPSILON < s) {x x' : Det × (Nat → Nat → Rat)} (h : SameSide s x x') : Agrees t t s s x x' := by
  have hget : ∀ p : Nat, (x.1.pds[p]? = none ∧ x'.1.pds[p]? = none) ∨ ∃ a a', x.1.pds[p]? = some a ∧ x'.1.pds[p]? = some a' ∧
      a'.labels = a.labels ∧ ∀ v ∈ a.labels, s ≤ scoreOf v a' ↔ s ≤ scoreOf v a := by
    intro p
    have hlen := h.pds.length_eq
    by_cases hp : p < x.1.pds.length
    · refine Or.inr ⟨x.1.pds[p], x'.1.pds[p]'(hlen ▸ hp), List.getElem?_eq_getElem hp, List.getElem?_eq_getElem _, ?_⟩
      exact (List.forall₂_iff_get.1 h.pds).2 p hp (hlen ▸ hp)
    · exact Or.inl ⟨List.getElem?_eq_none (by omega), List.getElem?_eq_none (by omega)⟩
  refine ⟨h.gts, h.iou, fun p => ?_, h.pds.length_eq.symm, fun v p => ?_, fun _ _ _ _ => Iff.rfl⟩
  · rcases hget p with ⟨h1, h2⟩ | ⟨a, a', h1, h2, h3, _⟩
    · rw [h1, h2]
    · rw [h1, h2, Option.map_some, Option.map_some, h3]
  · unfold Passing
    rcases hget p with ⟨h1, h2⟩ | ⟨a, a', h1, h2, h3, h4⟩
    · rw [h1, h2]
    · rw [h1, h2]
      constructor
      · rintro ⟨_, ⟨⟩, q1, q2, _⟩
        rw [h3] at q1
        exact ⟨a, rfl, q1, (h4 v q1).1 q2, lt_of_lt_of_le hs ((h4 v q1).1 q2)⟩
      · rintro ⟨_, ⟨⟩, q1, q2, _⟩
        exact ⟨a', rfl, h3 ▸ q1, (h4 v q1).2 q2, lt_of_lt_of_le hs ((h4 v q1).2 q2)⟩

/-- **C133 (detection, two detectors).** Two datasets with the same ground truths, predicted labels and IoUs, datum by datum in any order and
stored in any tables, in which the same scores reach the threshold: every label has the same number of ground truths, true and false
positives and false negatives, at every IoU threshold. -/
theorem C133_detection_scores {e e' : Built} {s : Rat} (hs : EPSILON < s) {H : History} (hp : e'.calls.flatten.Perm H)
    (h : List.Forall₂ (SameSide s) e.calls.flatten H)
    (hH : HistoryOk e.calls.flatten) (hD : DistinctLabels e.calls.flatten) (hS : SizesOk (Loader.init.addAll e.calls))
    (hH' : HistoryOk e'.calls.flatten) (hD' : DistinctLabels e'.calls.flatten) (hS' : SizesOk (Loader.init.addAll e'.calls))
    (t : Rat) (v : String) :
    e'.gt v = e.gt v ∧ e'.tp t s v = e.tp t s v ∧ e'.fp t s v = e.fp t s v ∧ e'.fn t s v = e.fn t s v :=
  counts_of_agrees hp (h.imp (fun _ _ hc => hc.agrees hs)) Iff.rfl hH hD hS hH' hD' hS' v

/-- **C133 (detection, two thresholds).** Two score thresholds with no score from the lower one up to below the higher one, and two positive
IoU thresholds with no IoU between them in the same way, give every label the same true and false positives and false negatives. -/
theorem C133_detection_thresholds {e : Built} {t t' s s' : Rat} (ht : 0 < t) (htt : t ≤ t') (hss : s ≤ s')
    (hscore : ∀ x ∈ e.calls.flatten, ∀ a ∈ x.1.pds, ∀ r ∈ a.scores, r < s ∨ s' ≤ r)
    (hiou : ∀ x ∈ e.calls.flatten, ∀ p < x.1.pds.length, ∀ g < x.1.gts.length, x.2 p g < t ∨ t' ≤ x.2 p g)
    (hH : HistoryOk e.calls.flatten) (hD : DistinctLabels e.calls.flatten) (hS : SizesOk (Loader.init.addAll e.calls)) (v : String) :
    e.tp t' s' v = e.tp t s v ∧ e.fp t' s' v = e.fp t s v ∧ e.fn t' s' v = e.fn t s v := by
  refine (counts_of_agrees (List.Perm.refl _) (List.forall₂_same.2 (fun x hx => ?_))
    ⟨fun h => lt_of_lt_of_le h htt, fun _ => ht⟩ hH hD hS hH hD hS v).2
  refine ⟨rfl, rfl, fun _ => rfl, rfl, fun w p => ?_, fun p g hp hg => ?_⟩
  · unfold Passing
    refine exists_congr (fun a => and_congr_right (fun ha => and_congr_right (fun _ => and_congr_left (fun he => ?_))))
    rcases hscore x hx a (List.mem_of_getElem? ha) _ (lookup_mem_right he) with h | h
    · exact ⟨fun h' => absurd (lt_of_lt_of_le h hss) (not_lt.2 h'), fun h' => absurd h (not_lt.2 h')⟩
    · exact ⟨fun _ => le_trans hss h, fun _ => h⟩
  · rcases hiou x hx p hp g hg with h | h
    · exact ⟨fun h' => absurd (lt_of_lt_of_le h htt) (not_lt.2 h'), fun h' => absurd h (not_lt.2 h')⟩
    · exact ⟨fun _ => le_trans htt h, fun _ => h⟩

/-- The two cats with less confident predictions. -/
def shyDet : Det × (Nat → Nat → Rat) :=
  (⟨"d", [⟨"g0", ["cat"], [], ""⟩, ⟨"g1", ["cat"], [], ""⟩], [⟨"p0", ["cat"], [6 / 10], ""⟩, ⟨"p1", ["cat"], [7 / 10], ""⟩], ""⟩,
    fun p g => if p = 0 then 3 / 5 else if g = 0 then 9 / 10 else 0)

example : ∃ e e' : Built, e'.calls.flatten.Perm [shyDet] ∧ List.Forall₂ (SameSide (1 / 2)) e.calls.flatten [shyDet] ∧
    HistoryOk e.calls.flatten ∧ DistinctLabels e.calls.flatten ∧ SizesOk (Loader.init.addAll e.calls) ∧
    HistoryOk e'.calls.flatten ∧ DistinctLabels e'.calls.flatten ∧ SizesOk (Loader.init.addAll e'.calls) ∧
    (∀ x ∈ e.calls.flatten, ∀ a ∈ x.1.pds, ∀ r ∈ a.scores, r < 1 / 2 ∨ 3 / 4 ≤ r) ∧
    ∀ x ∈ e.calls.flatten, ∀ p < x.1.pds.length, ∀ g < x.1.gts.length, x.2 p g < 1 / 4 ∨ 1 / 2 ≤ x.2 p g := by
  obtain ⟨e, he⟩ := built_exists [[tieDet]]
  obtain ⟨e', he'⟩ := built_exists [[shyDet]]
  have f : e.calls.flatten = [tieDet] := by rw [he]; rfl
  have f' : e'.calls.flatten = [shyDet] := by rw [he']; rfl
  obtain ⟨k1, _, k3, _, k5, _⟩ := tie_ok
  refine ⟨e, e', by rw [f'], ?_, f ▸ k1, f ▸ k3, by rw [he]; exact k5, ?_, ?_, ?_, ?_, ?_⟩
  · rw [f]
    refine List.Forall₂.cons ⟨rfl, rfl, List.Forall₂.cons ⟨rfl, ?_⟩ (List.Forall₂.cons ⟨rfl, ?_⟩ List.Forall₂.nil)⟩ List.Forall₂.nil
    · decide +kernel
    · decide +kernel
  · rw [f']
    refine ⟨?_, ?_, ?_⟩
    · simp [shyDet]
    · simp [shyDet]
    · intro x hx p g
      rw [List.mem_singleton.1 hx]
      simp only [shyDet]
      split
      · norm_num
      · split <;> norm_num
  · rw [f']
    unfold DistinctLabels
    decide +kernel
  · rw [he']
    exact ⟨by decide +kernel, by decide +kernel, by decide +kernel, by decide +kernel⟩
  · rw [f]
    decide +kernel
  · rw [f]
    decide +kernel

end Verif.Detection
