import Verif.Segmentation.OneMoreProps

/-! # C131: a dataset scores between its parts (`semantic_segmentation/computation.py` 62-165) -/

namespace Verif.Segmentation

/-- The quotient of sums lies between the quotients. -/
theorem ratio_sums {α : Type} {l : List α} {a b : α → Nat} (hab : ∀ x ∈ l, b x = 0 → a x = 0) {lo hi : Rat}
    (h : ∀ x ∈ l, b x ≠ 0 → lo ≤ ratio (a x) (b x) ∧ ratio (a x) (b x) ≤ hi) (h0 : (l.map b).sum = 0 → lo ≤ 0 ∧ 0 ≤ hi) :
    lo ≤ ratio (l.map a).sum (l.map b).sum ∧ ratio (l.map a).sum (l.map b).sum ≤ hi := by
  have key : lo * (l.map b).sum ≤ (l.map a).sum ∧ ((l.map a).sum : Rat) ≤ hi * (l.map b).sum := by
    clear h0
    induction l with
    | nil => simp
    | cons x l ih =>
      obtain ⟨i1, i2⟩ := ih (fun y hy => hab y (List.mem_cons_of_mem _ hy)) (fun y hy => h y (List.mem_cons_of_mem _ hy))
      simp only [List.map_cons, List.sum_cons, Nat.cast_add, mul_add]
      by_cases hb : b x = 0
      · have ha : a x = 0 := hab x List.mem_cons_self hb
        rw [ha, hb]
        simp only [Nat.cast_zero, mul_zero, zero_add]
        exact ⟨i1, i2⟩
      · obtain ⟨j1, j2⟩ := h x List.mem_cons_self hb
        have hb' : (0 : Rat) ≤ b x := by positivity
        have hm : ratio (a x) (b x) * b x = a x := by
          unfold ratio
          rw [if_neg hb, div_mul_cancel₀ _ (by exact_mod_cast hb)]
        have k1 := mul_le_mul_of_nonneg_right j1 hb'
        have k2 := mul_le_mul_of_nonneg_right j2 hb'
        rw [hm] at k1 k2
        exact ⟨add_le_add k1 i1, add_le_add k2 i2⟩
  by_cases hs : (l.map b).sum = 0
  · rw [hs]
    unfold ratio
    rw [if_pos rfl]
    exact h0 hs
  · have hp : (0 : Rat) < (l.map b).sum := by exact_mod_cast Nat.pos_of_ne_zero hs
    unfold ratio
    rw [if_neg hs, le_div_iff₀ hp, div_le_iff₀ hp]
    exact key

theorem ratio_sum_between {α : Type} {l : List α} {a b : α → Nat} (hab : ∀ x ∈ l, a x ≤ b x) {lo hi : Rat}
    (h : ∀ x ∈ l, b x ≠ 0 → lo ≤ ratio (a x) (b x) ∧ ratio (a x) (b x) ≤ hi) (h0 : (l.map b).sum = 0 → lo ≤ 0 ∧ 0 ≤ hi) :
    lo ≤ ratio (l.map a).sum (l.map b).sum ∧ ratio (l.map a).sum (l.map b).sum ≤ hi :=
  ratio_sums (fun x hx hb => by have := hab x hx; omega) h h0

/-- All values that the list reports for the label lie in the interval. -/
def Within (lo hi : Rat) (kind v : String) (l : List Metric) : Prop := ∀ x, ⟨kind, .number (some x), some v⟩ ∈ l → lo ≤ x ∧ x ≤ hi

theorem within_of {α : Type} {l : List (α × String)} {kind v : String} {f : String → Rat} {lo hi : Rat} (h : lo ≤ f v ∧ f v ≤ hi) :
    Within lo hi kind v (l.map (fun x => ⟨kind, .number (some (f x.2)), some x.2⟩)) := by
  intro x hx
  obtain ⟨y, _, hy⟩ := List.mem_map.1 hx
  simp only [Metric.mk.injEq, MetricValue.number.injEq, Option.some.injEq, true_and] at hy
  obtain ⟨h1, h2⟩ := hy
  rw [h2] at h1
  exact h1 ▸ h

theorem of_within {α : Type} {l : List (α × String)} {kind v : String} {f : String → Rat} {lo hi : Rat} (hv : v ∈ l.map Prod.snd)
    (h : Within lo hi kind v (l.map (fun x => ⟨kind, .number (some (f x.2)), some x.2⟩))) : lo ≤ f v ∧ f v ≤ hi := by
  obtain ⟨y, hy, rfl⟩ := List.mem_map.1 hv
  exact h _ (List.mem_map.2 ⟨y, hy, rfl⟩)

/-- One metric of a label: a quotient of pixel counts. -/
theorem metric_between {whole : Built} {shards : List Built} (h : Split whole shards) {v : String} (hv : v ∈ whole.labels) {a b : Seg → Nat}
    (hab : ∀ e ∈ shards, total e.calls a ≤ total e.calls b) (hb : ∀ e ∈ shards, v ∉ e.labels → total e.calls b = 0) {lo hi : Rat}
    (hin : ∀ e ∈ shards, v ∈ e.labels → lo ≤ ratio (total e.calls a) (total e.calls b) ∧ ratio (total e.calls a) (total e.calls b) ≤ hi) :
    lo ≤ ratio (total whole.calls a) (total whole.calls b) ∧ ratio (total whole.calls a) (total whole.calls b) ≤ hi := by
  rw [h.total, h.total]
  refine ratio_sum_between hab (fun e he hne => hin e he (by by_contra hv'; exact hne (hb e he hv'))) fun h0 => ?_
  obtain ⟨s, hs, it, hit, hl⟩ := ((C38_labels whole.calls).2 v).1 hv
  obtain ⟨l, hl', hsl⟩ := List.mem_flatten.1 (List.Perm.mem_iff h |>.1 hs)
  obtain ⟨e, he, rfl⟩ := List.mem_map.1 hl'
  have := hin e he (((C38_labels e.calls).2 v).2 ⟨s, hsl, it, hit, hl⟩)
  have hz : total e.calls b = 0 := by
    have := List.le_sum_of_mem (List.mem_map_of_mem (f := fun e : Built => total e.calls b) he)
    omega
  rw [hz] at this
  unfold ratio at this
  rw [if_pos rfl] at this
  exact this

/-- **C131 (segmentation).** The images of a dataset are evaluated as a whole and in parts, each with its own evaluator: precision, recall, F1 and IoU of
a label in the whole lie in every interval that holds those of the parts that report the label. -/
theorem C131_segmentation {whole : Built} {shards : List Built} (h : Split whole shards) (hok : ∀ s ∈ whole.calls.flatten, SegOk s)
    (hs : (whole.calls.flatten.map Seg.size).sum < 2 ^ 64) (hne : whole.labels ≠ []) (v : String) (lo hi : Rat) :
    ∃ R, whole.report = .ok R ∧
      ((∀ e ∈ shards, ∀ R', e.report = .ok R' → Within lo hi "Precision" v R'.precision) → Within lo hi "Precision" v R.precision) ∧
      ((∀ e ∈ shards, ∀ R', e.report = .ok R' → Within lo hi "Recall" v R'.recall) → Within lo hi "Recall" v R.recall) ∧
      ((∀ e ∈ shards, ∀ R', e.report = .ok R' → Within lo hi "F1" v R'.f1) → Within lo hi "F1" v R.f1) ∧
      ((∀ e ∈ shards, ∀ R', e.report = .ok R' → Within lo hi "IOU" v R'.iou) → Within lo hi "IOU" v R.iou) := by
  obtain ⟨n1, R, e1, a1, c1, m1, p1, r1, f1, i1⟩ := C65_report whole.calls hok hs whole.stored hne
  dsimp only at a1 m1 p1 r1 f1 i1
  have hsz : ∀ e ∈ shards, (e.calls.flatten.map Seg.size).sum < 2 ^ 64 := by
    intro e he
    refine lt_of_le_of_lt ?_ hs
    have hsz := h.total Seg.size
    unfold Verif.Segmentation.total at hsz
    rw [hsz]
    exact List.le_sum_of_mem (List.mem_map_of_mem (f := fun e : Built => (e.calls.flatten.map Seg.size).sum) he)
  have hpart : ∀ e ∈ shards, v ∈ e.labels → _ := fun e he hv =>
    C65_report e.calls (fun s hsm => hok s (h.mem he s hsm)) (hsz e he) e.stored (List.ne_nil_of_mem hv)
  have hunk : ∀ e : Built, v ∉ e.labels → total e.calls (fun s => gtPixelsOf s (some v)) = 0 ∧ total e.calls (fun s => pdPixelsOf s (some v)) = 0 ∧
      total e.calls (fun s => pixelsOf s (some v) (some v)) = 0 := fun e hv => by
    obtain ⟨u1, u2⟩ := unknown_pixels hv
    have := (both_le e.calls v).1
    exact ⟨u1, u2, by omega⟩
  have hsplit : ∀ (e : Built) (f g : Seg → Nat), total e.calls (fun s => f s + g s) = total e.calls f + total e.calls g := fun e f g => sum_add _ _ _
  have hdbl : ∀ (e : Built), total e.calls (fun s => pixelsOf s (some v) (some v) + pixelsOf s (some v) (some v))
      = 2 * total e.calls (fun s => pixelsOf s (some v) (some v)) := fun e => by rw [hsplit]; omega
  have hiou : ∀ (e : Built), total e.calls (fun s => gtPixelsOf s (some v) + pdPixelsOf s (some v) - pixelsOf s (some v) (some v))
      = total e.calls (fun s => gtPixelsOf s (some v)) + total e.calls (fun s => pdPixelsOf s (some v)) - total e.calls (fun s => pixelsOf s (some v) (some v)) := by
    intro e
    have k := hsplit e (fun s => gtPixelsOf s (some v) + pdPixelsOf s (some v) - pixelsOf s (some v) (some v)) (fun s => pixelsOf s (some v) (some v))
    rw [← hsplit, show (fun s => gtPixelsOf s (some v) + pdPixelsOf s (some v)) =
      fun s => gtPixelsOf s (some v) + pdPixelsOf s (some v) - pixelsOf s (some v) (some v) + pixelsOf s (some v) (some v) from by
        funext s
        have := (pixels_le s v).1
        omega, k]
    omega
  have hmem : ∀ x, v ∉ whole.labels → ∀ kind, ∀ f : String → Rat, (⟨kind, .number (some x), some v⟩ : Metric) ∉
      (Shared.extractLabels (whole.tables.map (fun t => t.map labelCols))).map (fun x => ⟨kind, .number (some (f x.2)), some x.2⟩) := by
    intro x hv kind f hx
    obtain ⟨y, hy, he⟩ := List.mem_map.1 hx
    simp only [Metric.mk.injEq, Option.some.injEq, true_and] at he
    exact hv (n1.mem_iff.1 (List.mem_map.2 ⟨y, hy, he.2⟩))
  refine ⟨R, e1, ?_, ?_, ?_, ?_⟩ <;> intro hin
  · rw [p1]
    by_cases hv : v ∈ whole.labels
    · refine within_of (f := fun v => ratio (total whole.calls (fun s => pixelsOf s (some v) (some v))) (total whole.calls (fun s => pdPixelsOf s (some v))))
        (metric_between h hv (fun e _ => (both_le e.calls v).2) (fun e _ hv' => (hunk e hv').2.1) fun e he hv' => ?_)
      obtain ⟨n2, R', e2, a2, c2, m2, p2, r2, f2, i2⟩ := hpart e he hv'
      have := hin e he R' e2
      rw [p2] at this
      exact of_within (f := fun v => ratio (total e.calls (fun s => pixelsOf s (some v) (some v))) (total e.calls (fun s => pdPixelsOf s (some v))))
        (n2.mem_iff.2 hv') this
    · intro x hx
      exact absurd hx (hmem x hv _ (fun v => ratio (total whole.calls (fun s => pixelsOf s (some v) (some v))) (total whole.calls (fun s => pdPixelsOf s (some v)))))
  · rw [r1]
    by_cases hv : v ∈ whole.labels
    · refine within_of (f := fun v => ratio (total whole.calls (fun s => pixelsOf s (some v) (some v))) (total whole.calls (fun s => gtPixelsOf s (some v))))
        (metric_between h hv (fun e _ => (both_le e.calls v).1) (fun e _ hv' => (hunk e hv').1) fun e he hv' => ?_)
      obtain ⟨n2, R', e2, a2, c2, m2, p2, r2, f2, i2⟩ := hpart e he hv'
      have := hin e he R' e2
      rw [r2] at this
      exact of_within (f := fun v => ratio (total e.calls (fun s => pixelsOf s (some v) (some v))) (total e.calls (fun s => gtPixelsOf s (some v))))
        (n2.mem_iff.2 hv') this
    · intro x hx
      exact absurd hx (hmem x hv _ (fun v => ratio (total whole.calls (fun s => pixelsOf s (some v) (some v))) (total whole.calls (fun s => gtPixelsOf s (some v)))))
  · rw [f1]
    by_cases hv : v ∈ whole.labels
    · refine within_of (f := fun v => ratio (2 * total whole.calls (fun s => pixelsOf s (some v) (some v)))
        (total whole.calls (fun s => gtPixelsOf s (some v)) + total whole.calls (fun s => pdPixelsOf s (some v)))) ?_
      rw [← hdbl, ← hsplit]
      refine metric_between h hv (fun e _ => ?_) (fun e _ hv' => ?_) fun e he hv' => ?_
      · rw [hdbl, hsplit]
        obtain ⟨b1, b2⟩ := both_le e.calls v
        omega
      · rw [hsplit]
        obtain ⟨u1, u2, _⟩ := hunk e hv'
        omega
      · obtain ⟨n2, R', e2, a2, c2, m2, p2, r2, f2, i2⟩ := hpart e he hv'
        have := hin e he R' e2
        rw [f2] at this
        rw [hdbl, hsplit]
        exact of_within (f := fun v => ratio (2 * total e.calls (fun s => pixelsOf s (some v) (some v)))
          (total e.calls (fun s => gtPixelsOf s (some v)) + total e.calls (fun s => pdPixelsOf s (some v)))) (n2.mem_iff.2 hv') this
    · intro x hx
      exact absurd hx (hmem x hv _ (fun v => ratio (2 * total whole.calls (fun s => pixelsOf s (some v) (some v)))
        (total whole.calls (fun s => gtPixelsOf s (some v)) + total whole.calls (fun s => pdPixelsOf s (some v)))))
  · rw [i1]
    by_cases hv : v ∈ whole.labels
    · refine within_of (f := fun v => ratio (total whole.calls (fun s => pixelsOf s (some v) (some v)))
        (total whole.calls (fun s => gtPixelsOf s (some v)) + total whole.calls (fun s => pdPixelsOf s (some v)) - total whole.calls (fun s => pixelsOf s (some v) (some v)))) ?_
      rw [← hiou]
      refine metric_between h hv (fun e _ => ?_) (fun e _ hv' => ?_) fun e he hv' => ?_
      · rw [hiou]
        obtain ⟨b1, b2⟩ := both_le e.calls v
        omega
      · rw [hiou]
        obtain ⟨u1, u2, _⟩ := hunk e hv'
        omega
      · obtain ⟨n2, R', e2, a2, c2, m2, p2, r2, f2, i2⟩ := hpart e he hv'
        have := hin e he R' e2
        rw [i2] at this
        rw [hiou]
        exact of_within (f := fun v => ratio (total e.calls (fun s => pixelsOf s (some v) (some v)))
          (total e.calls (fun s => gtPixelsOf s (some v)) + total e.calls (fun s => pdPixelsOf s (some v)) - total e.calls (fun s => pixelsOf s (some v) (some v))))
          (n2.mem_iff.2 hv') this
    · intro x hx
      exact absurd hx (hmem x hv _ (fun v => ratio (total whole.calls (fun s => pixelsOf s (some v) (some v)))
        (total whole.calls (fun s => gtPixelsOf s (some v)) + total whole.calls (fun s => pdPixelsOf s (some v)) - total whole.calls (fun s => pixelsOf s (some v) (some v)))))

/-- **C131 (segmentation, accuracy).** The accuracy of the whole lies in every interval that holds the accuracies of the parts, if every part has a label. -/
theorem C131_accuracy {whole : Built} {shards : List Built} (h : Split whole shards) (hok : ∀ s ∈ whole.calls.flatten, SegOk s)
    (hs : (whole.calls.flatten.map Seg.size).sum < 2 ^ 64) (hne : whole.labels ≠ []) (hlab : ∀ e ∈ shards, e.labels ≠ []) (lo hi : Rat)
    (hin : ∀ e ∈ shards, ∀ R x, e.report = .ok R → R.accuracy = [⟨"Accuracy", .number (some x), none⟩] → lo ≤ x ∧ x ≤ hi) :
    ∃ R x, whole.report = .ok R ∧ R.accuracy = [⟨"Accuracy", .number (some x), none⟩] ∧ lo ≤ x ∧ x ≤ hi := by
  obtain ⟨n1, R, e1, a1, _⟩ := C65_report whole.calls hok hs whole.stored hne
  refine ⟨R, _, e1, a1, ?_⟩
  obtain ⟨v, hv⟩ := List.exists_mem_of_ne_nil _ hne
  have hpart : ∀ e ∈ shards, lo ≤ ratio (total e.calls (fun s => (List.range s.size).countP (fun x => decide (itemAt s.gts x = itemAt s.pds x)))) (total e.calls Seg.size) ∧
      ratio (total e.calls (fun s => (List.range s.size).countP (fun x => decide (itemAt s.gts x = itemAt s.pds x)))) (total e.calls Seg.size) ≤ hi := by
    intro e he
    obtain ⟨n2, R', e2, a2, _⟩ := C65_report e.calls (fun s hsm => hok s (h.mem he s hsm)) (by
      refine lt_of_le_of_lt ?_ hs
      have hsz := h.total Seg.size
      unfold Verif.Segmentation.total at hsz
      rw [hsz]
      exact List.le_sum_of_mem (List.mem_map_of_mem (f := fun e : Built => (e.calls.flatten.map Seg.size).sum) he)) e.stored (hlab e he)
    exact hin e he R' _ e2 a2
  rw [h.total, h.total]
  refine ratio_sum_between (fun e _ => right_le e.calls) (fun e he _ => hpart e he) fun h0 => ?_
  obtain ⟨s, hsm, _⟩ := ((C38_labels whole.calls).2 v).1 hv
  obtain ⟨l, hl', hsl⟩ := List.mem_flatten.1 (List.Perm.mem_iff h |>.1 hsm)
  obtain ⟨e, he, rfl⟩ := List.mem_map.1 hl'
  have := hpart e he
  have hz : total e.calls Seg.size = 0 := by
    have := List.le_sum_of_mem (List.mem_map_of_mem (f := fun e : Built => total e.calls Seg.size) he)
    omega
  rw [hz] at this
  unfold ratio at this
  rw [if_pos rfl] at this
  exact this

/-- The hypotheses hold for two images that are evaluated together and apart: IoU 1 and 1/2, together 2/3; accuracy 1 and 1/2, together 2/3. -/
example : ∃ whole e1 e2 : Built, Split whole [e1, e2] ∧ (∀ s ∈ whole.calls.flatten, SegOk s) ∧ (whole.calls.flatten.map Seg.size).sum < 2 ^ 64 ∧ whole.labels ≠ [] ∧
    (∀ e ∈ [e1, e2], e.labels ≠ []) ∧
    (∃ R, e1.report = .ok R ∧ R.iou = [⟨"IOU", .number (some 1), some "x"⟩] ∧ R.accuracy = [⟨"Accuracy", .number (some 1), none⟩]) ∧
    (∃ R, e2.report = .ok R ∧ R.iou = [⟨"IOU", .number (some (1 / 2)), some "x"⟩] ∧ R.accuracy = [⟨"Accuracy", .number (some (1 / 2)), none⟩]) ∧
    ∃ R, whole.report = .ok R ∧ R.iou = [⟨"IOU", .number (some (2 / 3)), some "x"⟩] ∧ R.accuracy = [⟨"Accuracy", .number (some (2 / 3)), none⟩] := by
  refine ⟨⟨[[onePixel, ⟨"v", 2, [⟨[true, false], "x", none⟩], [⟨[true, true], "x", none⟩], none⟩]], _, List.Perm.refl _⟩,
    ⟨[[onePixel]], _, List.Perm.refl _⟩, ⟨[[⟨"v", 2, [⟨[true, false], "x", none⟩], [⟨[true, true], "x", none⟩], none⟩]], _, List.Perm.refl _⟩,
    by unfold Split; decide +kernel, ?_, by decide +kernel, by decide +kernel, ?_, ⟨_, rfl, by decide +kernel, by decide +kernel⟩,
    ⟨_, rfl, by decide +kernel, by decide +kernel⟩, _, rfl, by decide +kernel, by decide +kernel⟩
  · intro s hs
    simp only [List.flatten_cons, List.flatten_nil, List.append_nil, List.mem_cons, List.not_mem_nil, or_false] at hs
    rcases hs with rfl | rfl
    · exact onePixel_ok
    · exact ⟨⟨by simp, by simp [Disjoint], by decide⟩, ⟨by simp, by simp [Disjoint], by decide⟩⟩
  · intro e he
    simp only [List.mem_cons, List.not_mem_nil, or_false] at he
    rcases he with rfl | rfl <;> decide +kernel

end Verif.Segmentation
