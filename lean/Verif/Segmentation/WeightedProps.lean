import Verif.Segmentation.OnlyProps
import Verif.Segmentation.CorrectProps
import Verif.Segmentation.PerfectProps

/-! # C126: accuracy as a mean over labels (`semantic_segmentation/computation.py` 62-165) -/

namespace Verif.Segmentation

open Verif.Shared

theorem indicator_sum {L : List String} (hL : L.Nodup) {w : String} (hw : w ∈ L) : (L.map (fun v => if w = v then 1 else 0)).sum = 1 := by
  induction L with
  | nil => simp at hw
  | cons a L ih =>
    rw [List.map_cons, List.sum_cons]
    by_cases h : w = a
    · subst h
      have h0 : (L.map (fun v => if w = v then 1 else 0)).sum = 0 := by
        apply List.sum_eq_zero
        intro x hx
        obtain ⟨v, hv, rfl⟩ := List.mem_map.1 hx
        exact if_neg fun (h : w = v) => (List.nodup_cons.1 hL).1 (h ▸ hv)
      rw [if_pos rfl, h0]
    · rw [if_neg h, ih (List.nodup_cons.1 hL).2 ((List.mem_cons.1 hw).resolve_left h)]

/-- Every pixel that `q` selects is background or has one of the labels. -/
theorem countP_labels {L : List String} (hL : L.Nodup) (o : Nat → Option String) (ho : ∀ x v, o x = some v → v ∈ L) (q : Nat → Prop)
    [DecidablePred q] (l : List Nat) : l.countP (fun x => decide (q x))
      = (L.map (fun v => l.countP (fun x => decide (o x = some v ∧ q x)))).sum + l.countP (fun x => decide (o x = none ∧ q x)) := by
  induction l with
  | nil => simp
  | cons x l ih =>
    simp only [List.countP_cons, sum_add]
    rw [ih]
    by_cases hq : q x
    · cases hx : o x with
      | none => simp [hq]; omega
      | some w =>
        have hw := ho x w hx
        have : (L.map (fun v => if decide (some w = some v ∧ q x) = true then 1 else 0)).sum = 1 := by
          have e : (fun v => if decide (some w = some v ∧ q x) = true then 1 else 0) = fun v => if w = v then 1 else 0 := by
            funext v
            simp [hq]
          rw [e]
          exact indicator_sum hL hw
        rw [this]
        simp [hq]
        omega
    · simp [hq]

theorem sum_labels {α : Type} (L : List String) (l : List α) (f : α → String → Nat) :
    (l.map (fun s => (L.map (f s)).sum)).sum = (L.map (fun v => (l.map (fun s => f s v)).sum)).sum := by
  induction l with
  | nil => simp
  | cons s l ih =>
    simp only [List.map_cons, List.sum_cons, sum_add]
    rw [ih]

/-- Pixels whose ground truth and prediction are the same. -/
def rightPixels (calls : List (List Seg)) : Nat :=
  total calls (fun s => (List.range s.size).countP (fun x => decide (itemAt s.gts x = itemAt s.pds x)))

theorem right_split (calls : List (List Seg)) :
    rightPixels calls = ((Loader.init.addAll calls).labels.map (fun v => total calls (fun s => pixelsOf s (some v) (some v)))).sum
      + total calls (fun s => pixelsOf s none none) := by
  obtain ⟨hn, hl⟩ := C38_labels calls
  unfold rightPixels total
  rw [← sum_labels, ← sum_add]
  congr 1
  apply List.map_congr_left
  intro s hs
  rw [countP_labels hn (itemAt s.gts) (fun x v h => by
    obtain ⟨it, h1, h2⟩ := itemAt_label h
    exact (hl v).2 ⟨s, hs, it, List.mem_append_left _ h1, h2⟩) (fun x => itemAt s.gts x = itemAt s.pds x)]
  congr 1
  · congr 1
    apply List.map_congr_left
    intro v _
    unfold pixelsOf
    congr 1
    funext x
    rw [decide_eq_decide]
    exact ⟨fun h => ⟨h.1, h.2 ▸ h.1⟩, fun h => ⟨h.1, h.1.trans h.2.symm⟩⟩
  · unfold pixelsOf
    congr 1
    funext x
    rw [decide_eq_decide]
    exact ⟨fun h => ⟨h.1, h.2 ▸ h.1⟩, fun h => ⟨h.1, h.1.trans h.2.symm⟩⟩

/-- All pixels, by their ground truth. -/
theorem size_split (calls : List (List Seg)) :
    total calls Seg.size = ((Loader.init.addAll calls).labels.map (fun v => total calls (fun s => gtPixelsOf s (some v)))).sum
      + total calls (fun s => gtPixelsOf s none) := by
  obtain ⟨hn, hl⟩ := C38_labels calls
  unfold total
  rw [← sum_labels, ← sum_add]
  congr 1
  apply List.map_congr_left
  intro s hs
  have := countP_labels hn (itemAt s.gts) (fun x v h => by
    obtain ⟨it, h1, h2⟩ := itemAt_label h
    exact (hl v).2 ⟨s, hs, it, List.mem_append_left _ h1, h2⟩) (fun _ => True) (List.range s.size)
  simp only [and_true, decide_true, List.countP_true, List.length_range] at this
  exact this

theorem ratio_mul {a b : Nat} (h : a ≤ b) : ratio a b * b = a := by
  unfold ratio
  split
  · have : a = 0 := by omega
    subst this
    simp
  · rename_i hb
    have : (b : Rat) ≠ 0 := by exact_mod_cast hb
    field_simp

theorem cast_sum (L : List String) (f : String → Nat) : (((L.map f).sum : Nat) : Rat) = (L.map (fun v => (f v : Rat))).sum := by
  induction L with
  | nil => simp
  | cons v L ih => simp [ih]

/-- **C126.** The accuracy is the mean of the recalls of the labels, weighted by their pixels in the ground truth, and the mean of the precisions,
weighted by the predicted pixels; the pixels that are background on both sides count as one more class without errors. -/
theorem C126_weighted (e : Built) (hok : ∀ s ∈ e.calls.flatten, SegOk s) (hs : (e.calls.flatten.map Seg.size).sum < 2 ^ 64) (hne : e.labels ≠ []) :
    ∃ R acc, ∃ prec rec : String → Rat, e.report = .ok R ∧ R.accuracy = [⟨"Accuracy", .number (some acc), none⟩] ∧
      R.precision.Perm (e.labels.map (fun v => ⟨"Precision", .number (some (prec v)), some v⟩)) ∧
      R.recall.Perm (e.labels.map (fun v => ⟨"Recall", .number (some (rec v)), some v⟩)) ∧
      acc * total e.calls Seg.size
        = (e.labels.map (fun v => rec v * total e.calls (fun s => gtPixelsOf s (some v)))).sum + total e.calls (fun s => pixelsOf s none none) ∧
      acc * total e.calls Seg.size
        = (e.labels.map (fun v => prec v * total e.calls (fun s => pdPixelsOf s (some v)))).sum + total e.calls (fun s => pixelsOf s none none) := by
  obtain ⟨n1, R, e1, a1, c1, m1, p1, r1, f1, i1⟩ := C65_report e.calls hok hs e.stored hne
  have hacc : ratio (rightPixels e.calls) (total e.calls Seg.size) * total e.calls Seg.size = rightPixels e.calls := by
    apply ratio_mul
    apply total_le
    intro s
    exact le_trans List.countP_le_length (by simp)
  have hsplit : (rightPixels e.calls : Rat) = (e.labels.map (fun v => (total e.calls (fun s => pixelsOf s (some v) (some v)) : Rat))).sum
      + total e.calls (fun s => pixelsOf s none none) := by
    rw [right_split, Nat.cast_add, cast_sum]
    rfl
  refine ⟨R, _, fun v => ratio (total e.calls (fun s => pixelsOf s (some v) (some v))) (total e.calls (fun s => pdPixelsOf s (some v))),
    fun v => ratio (total e.calls (fun s => pixelsOf s (some v) (some v))) (total e.calls (fun s => gtPixelsOf s (some v))), e1, a1, ?_, ?_, ?_, ?_⟩
  · rw [p1]
    have := n1.map (fun v => (⟨"Precision", .number (some (ratio (total e.calls (fun s => pixelsOf s (some v) (some v))) (total e.calls (fun s => pdPixelsOf s (some v))))), some v⟩ : Metric))
    rw [List.map_map] at this
    exact this
  · rw [r1]
    have := n1.map (fun v => (⟨"Recall", .number (some (ratio (total e.calls (fun s => pixelsOf s (some v) (some v))) (total e.calls (fun s => gtPixelsOf s (some v))))), some v⟩ : Metric))
    rw [List.map_map] at this
    exact this
  · refine Eq.trans hacc ?_
    rw [hsplit]
    congr 2
    apply List.map_congr_left
    intro v _
    rw [ratio_mul]
    apply total_le
    intro s
    exact List.countP_mono_left fun x _ h => by simp only [decide_eq_true_eq] at h ⊢; exact h.1
  · refine Eq.trans hacc ?_
    rw [hsplit]
    congr 2
    apply List.map_congr_left
    intro v _
    rw [ratio_mul]
    apply total_le
    intro s
    exact List.countP_mono_left fun x _ h => by simp only [decide_eq_true_eq] at h ⊢; exact h.2

/-- A sum of values between `lo` and `hi` with weights. -/
theorem weighted_between {L : List String} {w : String → Nat} {f : String → Rat} {lo hi : Rat}
    (h : ∀ v ∈ L, w v ≠ 0 → lo ≤ f v ∧ f v ≤ hi) :
    lo * (L.map w).sum ≤ (L.map (fun v => f v * w v)).sum ∧ (L.map (fun v => f v * w v)).sum ≤ hi * (L.map w).sum := by
  induction L with
  | nil => simp
  | cons a L ih =>
    obtain ⟨h1, h2⟩ := ih fun v hv => h v (List.mem_cons_of_mem _ hv)
    simp only [List.map_cons, List.sum_cons, Nat.cast_add]
    by_cases hw : w a = 0
    · rw [hw]
      simp only [Nat.cast_zero, mul_zero, zero_add]
      exact ⟨h1, h2⟩
    · obtain ⟨h3, h4⟩ := h a List.mem_cons_self hw
      have hw' : (0 : Rat) ≤ w a := by positivity
      constructor <;> nlinarith [mul_le_mul_of_nonneg_right h3 hw', mul_le_mul_of_nonneg_right h4 hw']

/-- **C126 (bounds).** If every pixel has a ground truth, the accuracy lies between the smallest and the largest recall of the labels that
occur in the ground truth. -/
theorem C126_between (e : Built) (hok : ∀ s ∈ e.calls.flatten, SegOk s) (hs : (e.calls.flatten.map Seg.size).sum < 2 ^ 64) (hne : e.labels ≠ [])
    (hp : 0 < total e.calls Seg.size) (hfull : ∀ s ∈ e.calls.flatten, ∀ x < s.size, itemAt s.gts x ≠ none) :
    ∃ R acc, ∃ rec : String → Rat, e.report = .ok R ∧ R.accuracy = [⟨"Accuracy", .number (some acc), none⟩] ∧
      R.recall.Perm (e.labels.map (fun v => ⟨"Recall", .number (some (rec v)), some v⟩)) ∧
      ∀ lo hi : Rat, (∀ v ∈ e.labels, (∃ s ∈ e.calls.flatten, ∃ x < s.size, itemAt s.gts x = some v) → lo ≤ rec v ∧ rec v ≤ hi) →
        lo ≤ acc ∧ acc ≤ hi := by
  obtain ⟨R, acc, prec, rec, h1, h2, _, h3, h4, _⟩ := C126_weighted e hok hs hne
  refine ⟨R, acc, rec, h1, h2, h3, fun lo hi hb => ?_⟩
  have hz : ∀ f : Seg → Nat, (∀ s ∈ e.calls.flatten, f s = 0) → total e.calls f = 0 := fun f h => total_zero h
  have z1 : total e.calls (fun s => pixelsOf s none none) = 0 := by
    apply hz
    intro s hsm
    unfold pixelsOf
    rw [List.countP_eq_zero]
    intro x hx h
    exact hfull s hsm x (List.mem_range.1 hx) (of_decide_eq_true h).1
  have z2 : total e.calls (fun s => gtPixelsOf s none) = 0 := by
    apply hz
    intro s hsm
    unfold gtPixelsOf
    rw [List.countP_eq_zero]
    intro x hx h
    exact hfull s hsm x (List.mem_range.1 hx) (of_decide_eq_true h)
  have hsz := size_split e.calls
  rw [z2, add_zero] at hsz
  rw [z1, Nat.cast_zero, add_zero] at h4
  have hw := weighted_between (L := e.labels) (w := fun v => total e.calls (fun s => gtPixelsOf s (some v))) (f := rec) (lo := lo) (hi := hi) (by
    intro v hv hwv
    apply hb v hv
    by_contra hcon
    apply hwv
    apply hz
    intro s hsm
    unfold gtPixelsOf
    rw [List.countP_eq_zero]
    intro x hx h
    exact hcon ⟨s, hsm, x, List.mem_range.1 hx, of_decide_eq_true h⟩)
  have hsz' : (e.labels.map (fun v => total e.calls (fun s => gtPixelsOf s (some v)))).sum = total e.calls Seg.size := hsz.symm
  rw [hsz', ← h4] at hw
  have hp' : (0 : Rat) < total e.calls Seg.size := by exact_mod_cast hp
  exact ⟨le_of_mul_le_mul_right hw.1 hp', le_of_mul_le_mul_right hw.2 hp'⟩

/-- The hypotheses hold for an image with two labels: three pixels `x` with recall 2/3, one pixel `y` with recall 1, accuracy 3/4. -/
example : ∃ e : Built, (∀ s ∈ e.calls.flatten, SegOk s) ∧ (e.calls.flatten.map Seg.size).sum < 2 ^ 64 ∧ e.labels = ["x", "y"] ∧
    0 < total e.calls Seg.size ∧ (∀ s ∈ e.calls.flatten, ∀ x < s.size, itemAt s.gts x ≠ none) ∧
    ∃ R, e.report = .ok R ∧ R.accuracy = [⟨"Accuracy", .number (some (3 / 4)), none⟩] ∧
      R.recall = [⟨"Recall", .number (some (2 / 3)), some "x"⟩, ⟨"Recall", .number (some 1), some "y"⟩] := by
  refine ⟨⟨[[⟨"v", 4, [⟨[true, true, true, false], "x", none⟩, ⟨[false, false, false, true], "y", none⟩],
    [⟨[true, true, false, false], "x", none⟩, ⟨[false, false, true, true], "y", none⟩], none⟩]], _, List.Perm.refl _⟩, ?_, by decide +kernel,
    by decide +kernel, by decide +kernel, ?_, _, rfl, by decide +kernel, by decide +kernel⟩
  · intro s hs
    simp only [List.flatten_cons, List.flatten_nil, List.append_nil, List.mem_cons, List.not_mem_nil, or_false] at hs
    subst hs
    refine ⟨⟨by simp, ?_, by decide⟩, ⟨by simp, ?_, by decide⟩⟩ <;>
    · refine List.pairwise_pair.2 fun x hx => ?_
      rcases x with _ | _ | _ | _ | x <;> simp [bit] at hx
  · intro s hs
    simp only [List.flatten_cons, List.flatten_nil, List.append_nil, List.mem_cons, List.not_mem_nil, or_false] at hs
    subst hs
    decide +kernel

end Verif.Segmentation
