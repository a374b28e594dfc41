import Verif.Segmentation.ReportProps

/-! # C76: segmentation reports and the order of adding -/

namespace Verif.Segmentation

open Verif.Shared

theorem total_perm {calls calls' : List (List Seg)} (hp : calls.flatten.Perm calls'.flatten) : total calls = total calls' := by
  funext f
  unfold total
  exact (hp.map _).sum_eq

theorem labels_order {calls calls' : List (List Seg)} (hp : calls.flatten.Perm calls'.flatten) :
    (Loader.init.addAll calls).labels.Perm (Loader.init.addAll calls').labels := by
  refine (List.perm_ext_iff_of_nodup (C38_labels calls).1 (C38_labels calls').1).2 ?_
  intro v
  rw [(C38_labels calls).2, (C38_labels calls').2]
  simp only [hp.mem_iff]

theorem lookup_names {β : Type} (l : List String) (f : String → β) (g : String) :
    (l.map (fun x => (x, f x))).lookup g = if g ∈ l then some (f g) else none := by
  induction l with
  | nil => rfl
  | cons a l ih =>
    rw [List.map_cons, List.lookup_cons]
    by_cases h : g = a
    · subst h; simp
    · have : (g == a) = false := by simpa using h
      rw [this]
      simp only [ih, List.mem_cons, h, false_or]

/-- What a confusion matrix says about two labels. -/
def cellOf (m : List (String × List (String × Rat))) (g p : String) : Option Rat := (m.lookup g).bind (fun r => r.lookup p)

theorem cellOf_names (l : List String) (f : String → String → Rat) (g p : String) :
    cellOf (l.map (fun a => (a, l.map (fun b => (b, f a b))))) g p = if g ∈ l ∧ p ∈ l then some (f g p) else none := by
  unfold cellOf
  rw [lookup_names]
  by_cases hg : g ∈ l
  · rw [if_pos hg, Option.bind_some, lookup_names]
    by_cases hp : p ∈ l
    · rw [if_pos hp, if_pos ⟨hg, hp⟩]
    · rw [if_neg hp, if_neg (fun h => hp h.2)]
  · rw [if_neg hg, if_neg (fun h => hg h.1)]
    rfl

/-- **C76 (segmentation).** The same images added in any two orders and calls, stored in any two divisions: both reports succeed;
accuracy and mean IoU agree, the lists by label hold the same metrics, and the confusion matrices say the same about every two
labels and about the background of every label. -/
theorem C76_segmentation {calls calls' : List (List Seg)} (hperm : calls.flatten.Perm calls'.flatten) (hok : ∀ s ∈ calls.flatten, SegOk s)
    (hs : (calls.flatten.map Seg.size).sum < 2 ^ 64) {tables tables' : List (List SRow)}
    (hp : tables.flatten.Perm (Loader.init.addAll calls).rows.flatten) (hp' : tables'.flatten.Perm (Loader.init.addAll calls').rows.flatten)
    (hne : (Loader.init.addAll calls).labels ≠ []) :
    ∃ R R', (Evaluator.mk tables (extractLabels (tables.map (fun t => t.map labelCols)))).report none = .ok R ∧
      (Evaluator.mk tables' (extractLabels (tables'.map (fun t => t.map labelCols)))).report none = .ok R' ∧
      R.accuracy = R'.accuracy ∧ R.meanIou = R'.meanIou ∧ R.precision.Perm R'.precision ∧ R.recall.Perm R'.recall ∧
      R.f1.Perm R'.f1 ∧ R.iou.Perm R'.iou ∧
      ∃ m a b m' a' b', R.confusionMatrix = [⟨"ConfusionMatrix", .matrix m a b, none⟩] ∧
        R'.confusionMatrix = [⟨"ConfusionMatrix", .matrix m' a' b', none⟩] ∧
        (∀ g p, cellOf m g p = cellOf m' g p) ∧ (∀ v, a.lookup v = a'.lookup v) ∧ ∀ v, b.lookup v = b'.lookup v := by
  have hl := labels_order hperm
  have hne' : (Loader.init.addAll calls').labels ≠ [] := by
    intro e
    rw [e] at hl
    exact hne hl.eq_nil
  obtain ⟨n1, R, e1, a1, c1, m1, p1, r1, f1, i1⟩ := C65_report calls hok hs hp hne
  obtain ⟨n2, R', e2, a2, c2, m2, p2, r2, f2, i2⟩ := C65_report calls' (fun s h => hok s (hperm.mem_iff.2 h))
    (by rw [← (hperm.map _).sum_eq]; exact hs) hp' hne'
  rw [← total_perm hperm] at a2 c2 m2 p2 r2 f2 i2
  have hnames := n1.trans (hl.trans n2.symm)
  have hlist : ∀ f : String → Metric, ((extractLabels (tables.map (fun t => t.map labelCols))).map (fun x => f x.2)).Perm
      ((extractLabels (tables'.map (fun t => t.map labelCols))).map (fun x => f x.2)) := by
    intro f
    have := hnames.map f
    simpa only [List.map_map, Function.comp_def] using this
  refine ⟨R, R', e1, e2, by rw [a1, a2], ?_, ?_, ?_, ?_, ?_, _, _, _, _, _, _, c1, c2, ?_, ?_, ?_⟩
  · rw [m1, m2, (hl.map _).sum_eq, hl.length_eq]
  · rw [p1, p2]
    exact hlist (fun v => ⟨"Precision", .number (some (ratio (total calls (fun s => pixelsOf s (some v) (some v))) (total calls (fun s => pdPixelsOf s (some v))))), some v⟩)
  · rw [r1, r2]
    exact hlist (fun v => ⟨"Recall", .number (some (ratio (total calls (fun s => pixelsOf s (some v) (some v))) (total calls (fun s => gtPixelsOf s (some v))))), some v⟩)
  · rw [f1, f2]
    exact hlist (fun v => ⟨"F1", .number (some (ratio (2 * (total calls (fun s => pixelsOf s (some v) (some v)))) ((total calls (fun s => gtPixelsOf s (some v))) + (total calls (fun s => pdPixelsOf s (some v)))))), some v⟩)
  · rw [i1, i2]
    exact hlist (fun v => ⟨"IOU", .number (some (ratio (total calls (fun s => pixelsOf s (some v) (some v))) ((total calls (fun s => gtPixelsOf s (some v))) + (total calls (fun s => pdPixelsOf s (some v))) - (total calls (fun s => pixelsOf s (some v) (some v)))))), some v⟩)
  · intro g p
    rw [cellOf_names, cellOf_names]
    simp only [hl.mem_iff]
  · intro v
    rw [lookup_names, lookup_names]
    simp only [hl.mem_iff]
  · intro v
    rw [lookup_names, lookup_names]
    simp only [hl.mem_iff]

/-- The sample reversed: the labels get other ids. -/
example : sampleCalls.flatten.Perm [sampleCalls.flatten.reverse].flatten ∧
    (Loader.init.addAll sampleCalls).labels ≠ (Loader.init.addAll [sampleCalls.flatten.reverse]).labels ∧
    (Loader.init.addAll sampleCalls).labels ≠ [] := by
  refine ⟨by simp, by decide +kernel, by decide +kernel⟩

end Verif.Segmentation
