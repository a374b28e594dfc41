import Verif.Segmentation.ReportProps

/-! # C82: perfect segmentations -/

namespace Verif.Segmentation
open Verif.Shared (extractLabels)

/-- Every pixel of the image has the predicted label of its ground truth, or is background on both sides. -/
def SameEverywhere (s : Seg) : Prop := ∀ x, x < s.size → itemAt s.gts x = itemAt s.pds x

theorem ratio_self (a : Nat) : ratio a a = if a = 0 then 0 else 1 := by
  unfold ratio
  split
  · rfl
  · next h => exact div_self (by exact_mod_cast h)

theorem total_congr {calls : List (List Seg)} {f g : Seg → Nat} (h : ∀ s ∈ calls.flatten, f s = g s) : total calls f = total calls g := by
  unfold total
  rw [List.map_congr_left h]

theorem total_zero {calls : List (List Seg)} {f : Seg → Nat} (h : ∀ s ∈ calls.flatten, f s = 0) : total calls f = 0 := by
  unfold total
  rw [List.sum_eq_zero_iff]
  intro y hy
  obtain ⟨s, hs, rfl⟩ := List.mem_map.1 hy
  exact h s hs

theorem same_pixels {s : Seg} (h : SameEverywhere s) (a b : Option String) :
    pixelsOf s a b = if a = b then gtPixelsOf s a else 0 := by
  unfold pixelsOf gtPixelsOf
  split
  · next e =>
    subst e
    apply List.countP_congr
    intro x hx
    rw [decide_eq_true_eq, decide_eq_true_eq, h x (List.mem_range.1 hx)]
    exact and_self_iff
  · next e =>
    rw [List.countP_eq_zero]
    intro x hx
    rw [decide_eq_true_eq, h x (List.mem_range.1 hx)]
    rintro ⟨h1, h2⟩
    exact e (h1.symm.trans h2)

theorem same_pd {s : Seg} (h : SameEverywhere s) (a : Option String) : pdPixelsOf s a = gtPixelsOf s a := by
  unfold pdPixelsOf gtPixelsOf
  apply List.countP_congr
  intro x hx
  rw [decide_eq_true_eq, decide_eq_true_eq, h x (List.mem_range.1 hx)]

theorem sum_eq_iff {α : Type} {f g : α → Nat} : ∀ {l : List α}, (∀ x ∈ l, f x ≤ g x) →
    ((l.map f).sum = (l.map g).sum ↔ ∀ x ∈ l, f x = g x)
  | [], _ => by simp
  | a :: l, h => by
    have h1 := h a (by simp)
    have h2 := sum_eq_iff (l := l) (fun x hx => h x (by simp [hx]))
    have h3 : (l.map f).sum ≤ (l.map g).sum := List.sum_le_sum (fun x hx => h x (by simp [hx]))
    simp only [List.map_cons, List.sum_cons, List.forall_mem_cons]
    constructor
    · intro e
      exact ⟨by omega, h2.1 (by omega)⟩
    · rintro ⟨e1, e2⟩
      rw [e1, h2.2 e2]

/-- **C82 (accuracy).** For images with disjoint masks and distinct labels, in any batching and order and for any division of
the rows: the accuracy is 1 exactly when every pixel of every image has the predicted label of its ground truth. -/
theorem C82_segmentation_accuracy (calls : List (List Seg)) (hok : ∀ s ∈ calls.flatten, SegOk s)
    (hs : (calls.flatten.map Seg.size).sum < 2 ^ 64) (h0 : (calls.flatten.map Seg.size).sum ≠ 0) {tables : List (List SRow)}
    (hp : tables.flatten.Perm (Loader.init.addAll calls).rows.flatten) :
    accuracy (Loader.init.addAll calls).labels.length (confusionMatrix (Loader.init.addAll calls).labels.length none tables) = 1
      ↔ ∀ s ∈ calls.flatten, SameEverywhere s := by
  rw [C39_accuracy calls hok hs hp]
  unfold ratio
  rw [if_neg h0, div_eq_one_iff_eq (by exact_mod_cast h0), Nat.cast_inj, sum_eq_iff]
  · constructor
    · intro h s hsm x hx
      have := h s hsm
      conv_rhs at this => rw [← List.length_range (n := s.size)]
      rw [List.countP_eq_length] at this
      simpa using this x (List.mem_range.2 hx)
    · intro h s hsm
      conv_rhs => rw [← List.length_range (n := s.size)]
      rw [List.countP_eq_length]
      intro x hx
      rw [decide_eq_true_eq]
      exact h s hsm x (List.mem_range.1 hx)
  · intro s _
    exact le_trans List.countP_le_length (by simp)

/-- **C82 (report).** When every pixel of every image has the predicted label of its ground truth, the report has accuracy 1;
precision, recall, F1 and IoU are 1 for every label that has a pixel, and 0 for a label with empty masks only; the confusion
matrix has the IoU 1 for such a label with itself and 0 everywhere else; and the mean IoU is the share of the labels that have
a pixel. -/
theorem C82_segmentation_report (calls : List (List Seg)) (hok : ∀ s ∈ calls.flatten, SegOk s)
    (hs : (calls.flatten.map Seg.size).sum < 2 ^ 64) (h0 : (calls.flatten.map Seg.size).sum ≠ 0) {tables : List (List SRow)}
    (hp : tables.flatten.Perm (Loader.init.addAll calls).rows.flatten) (hne : (Loader.init.addAll calls).labels ≠ [])
    (hsame : ∀ s ∈ calls.flatten, SameEverywhere s) :
    let L := (Loader.init.addAll calls).labels
    let labels := extractLabels (tables.map (fun t => t.map labelCols))
    let one (v : String) : Rat := if total calls (fun s => gtPixelsOf s (some v)) = 0 then 0 else 1
    ∃ R, (Evaluator.mk tables labels).report none = .ok R ∧
      R.accuracy = [⟨"Accuracy", .number (some 1), none⟩] ∧
      R.precision = labels.map (fun x => ⟨"Precision", .number (some (one x.2)), some x.2⟩) ∧
      R.recall = labels.map (fun x => ⟨"Recall", .number (some (one x.2)), some x.2⟩) ∧
      R.f1 = labels.map (fun x => ⟨"F1", .number (some (one x.2)), some x.2⟩) ∧
      R.iou = labels.map (fun x => ⟨"IOU", .number (some (one x.2)), some x.2⟩) ∧
      R.meanIou = [⟨"mIOU", .number (some ((L.map one).sum / L.length)), none⟩] ∧
      R.confusionMatrix = [⟨"ConfusionMatrix", .matrix (L.map (fun g => (g, L.map (fun p => (p, if g = p then one g else 0)))))
        (L.map (fun p => (p, 0))) (L.map (fun g => (g, 0))), none⟩] := by
  intro L labels one
  obtain ⟨_, R, h1, h2, h3, h4, h5, h6, h7, h8⟩ := C65_report calls hok hs hp hne
  have hpd : ∀ v : String, total calls (fun s => pdPixelsOf s (some v)) = total calls (fun s => gtPixelsOf s (some v)) :=
    fun v => total_congr fun s hsm => same_pd (hsame s hsm) _
  have hboth : ∀ a b : Option String, total calls (fun s => pixelsOf s a b) = if a = b then total calls (fun s => gtPixelsOf s a) else 0 := by
    intro a b
    split
    · next e => exact total_congr fun s hsm => by rw [same_pixels (hsame s hsm), if_pos e]
    · next e => exact total_zero fun s hsm => by rw [same_pixels (hsame s hsm), if_neg e]
  have hself : ∀ a : Option String, total calls (fun s => pixelsOf s a a) = total calls (fun s => gtPixelsOf s a) := by
    intro a; rw [hboth, if_pos rfl]
  have hratio0 : ∀ b, ratio 0 b = 0 := by
    intro b; unfold ratio; split <;> simp
  refine ⟨R, h1, ?_, ?_, ?_, ?_, ?_, ?_, ?_⟩
  · rw [h2]
    have : total calls (fun s => (List.range s.size).countP (fun x => decide (itemAt s.gts x = itemAt s.pds x))) = total calls Seg.size := by
      apply total_congr
      intro s hsm
      conv_rhs => rw [← List.length_range (n := s.size)]
      rw [List.countP_eq_length]
      intro x hx
      rw [decide_eq_true_eq]
      exact hsame s hsm x (List.mem_range.1 hx)
    rw [this, ratio_self, if_neg (show total calls Seg.size ≠ 0 from h0)]
  · rw [h5]; simp only [hself, hpd, ratio_self]; rfl
  · rw [h6]; simp only [hself, ratio_self]; rfl
  · rw [h7]; simp only [hself, hpd, ← two_mul, ratio_self]
    apply List.map_congr_left
    intro x _
    simp only [one, Nat.mul_eq_zero, OfNat.ofNat_ne_zero, false_or]
  · rw [h8]; simp only [hself, hpd, Nat.add_sub_cancel, ratio_self]; rfl
  · rw [h4]; simp only [hself, hpd, Nat.add_sub_cancel, ratio_self]; rfl
  · rw [h3]
    simp only [hboth, Option.some.injEq, reduceCtorEq, if_false, hratio0]
    congr 3
    apply List.map_congr_left
    intro g _
    congr 1
    apply List.map_congr_left
    intro p _
    congr 1
    split
    · next e => subst e; rw [hpd, Nat.add_sub_cancel, ratio_self]
    · exact hratio0 _

/-- **C82 (mean IoU), violation.** A ground truth with an empty mask, predicted exactly, has IoU 0, so that the mean IoU of a perfect
segmentation is 1/2. -/
theorem C82_empty_mask_violation :
    let s : Seg := ⟨"a", 2, [⟨[true, false], "x", none⟩, ⟨[false, false], "y", none⟩], [⟨[true, false], "x", none⟩, ⟨[false, false], "y", none⟩], none⟩
    let tables := [(Loader.init.addAll [[s]]).rows.flatten]
    s.gts = s.pds ∧ ((Evaluator.mk tables (extractLabels (tables.map (fun t => t.map labelCols)))).report none).toOption.map
      (fun R => (R.accuracy, R.meanIou)) = some ([⟨"Accuracy", .number (some 1), none⟩], [⟨"mIOU", .number (some (1/2)), none⟩]) := by
  decide +kernel

/-- Two images that are predicted exactly, one with its masks in another order. -/
def perfectCalls : List (List Seg) :=
  [[⟨"a", 3, [⟨[true, false, false], "x", none⟩, ⟨[false, true, false], "y", none⟩],
      [⟨[false, true, false], "y", none⟩, ⟨[true, false, false], "x", none⟩], none⟩], [⟨"b", 2, [], [], none⟩]]

/-- The hypotheses hold for two images. -/
example : (∀ s ∈ perfectCalls.flatten, SameEverywhere s) ∧ (perfectCalls.flatten.map Seg.size).sum = 5 ∧
    (Loader.init.addAll perfectCalls).labels = ["x", "y"] := by
  refine ⟨?_, by decide +kernel, by decide +kernel⟩
  intro s hs
  simp only [perfectCalls, List.flatten_cons, List.flatten_nil, List.append_nil, List.mem_append, List.mem_singleton] at hs
  rcases hs with rfl | rfl
  · intro x hx
    have : x = 0 ∨ x = 1 ∨ x = 2 := by
      have : x < 3 := hx
      omega
    rcases this with rfl | rfl | rfl <;> decide
  · intro x _
    rfl

example : ∀ s ∈ perfectCalls.flatten, SegOk s := by
  intro s hs
  simp only [perfectCalls, List.flatten_cons, List.flatten_nil, List.append_nil, List.mem_append, List.mem_singleton] at hs
  rcases hs with rfl | rfl
  · refine ⟨⟨by simp, ?_, by decide⟩, ⟨by simp, ?_, by decide⟩⟩
    · unfold Disjoint
      simp only [List.map_cons, List.map_nil, List.pairwise_cons, List.mem_singleton, forall_eq, List.not_mem_nil, false_imp_iff,
        implies_true, List.Pairwise.nil, and_true]
      rintro (_ | _ | _ | x) <;> simp [bit]
    · unfold Disjoint
      simp only [List.map_cons, List.map_nil, List.pairwise_cons, List.mem_singleton, forall_eq, List.not_mem_nil, false_imp_iff,
        implies_true, List.Pairwise.nil, and_true]
      rintro (_ | _ | _ | x) <;> simp [bit]
  · exact ⟨⟨by simp, by simp [Disjoint], by simp⟩, ⟨by simp, by simp [Disjoint], by simp⟩⟩

end Verif.Segmentation
