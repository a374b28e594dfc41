import Verif.Segmentation.ShardProps
import Mathlib.Algebra.Order.BigOperators.Group.Finset
import Mathlib.Algebra.Order.Field.Basic
import Mathlib.Tactic.Positivity
import Mathlib.Tactic.GCongr
import Mathlib.Tactic.Linarith

/-! # C111: correcting pixels never hurts (`semantic_segmentation/computation.py`, `semantic_segmentation/evaluator.py`) -/

namespace Verif.Segmentation

open Verif.Shared

/-- The second image has the ground truth of the first one. At every pixel its prediction is that of the first, or the true one (the label or
background). -/
def Corrected (s s' : Seg) : Prop :=
  s'.size = s.size ∧ ∀ x < s.size, itemAt s'.gts x = itemAt s.gts x ∧
    (itemAt s'.pds x = itemAt s.pds x ∨ itemAt s'.pds x = itemAt s.gts x)

/-- The images of the second evaluator, in some order, are those of the first with corrected predictions. -/
def AllCorrected (e e' : Built) : Prop :=
  ∃ l, e'.calls.flatten.Perm l ∧ List.Forall₂ Corrected e.calls.flatten l

theorem countP_pair_le {l : List Nat} {a b c d : Nat → Bool} (h : ∀ x ∈ l, (a x).toNat + (b x).toNat ≤ (c x).toNat + (d x).toNat) :
    l.countP a + l.countP b ≤ l.countP c + l.countP d := by
  induction l with
  | nil => simp
  | cons x l ih =>
    have h1 := ih (fun y hy => h y (List.mem_cons_of_mem _ hy))
    have h2 := h x List.mem_cons_self
    simp only [List.countP_cons]
    cases ha : a x <;> cases hb : b x <;> cases hc : c x <;> cases hd : d x <;> simp [ha, hb, hc, hd] at h2 ⊢ <;> omega

theorem AllCorrected.sum {e e' : Built} (h : AllCorrected e e') {f g f' g' : Seg → Nat}
    (hf : ∀ s s', Corrected s s' → f' s' + g s ≤ f s + g' s') :
    total e'.calls f' + total e.calls g ≤ total e.calls f + total e'.calls g' := by
  obtain ⟨l, hp, hl⟩ := h
  unfold total
  rw [(hp.map f').sum_eq, (hp.map g').sum_eq]
  clear hp
  generalize e.calls.flatten = k at hl
  induction hl with
  | nil => simp
  | cons hab _ ih =>
    have := hf _ _ hab
    simp only [List.map_cons, List.sum_cons]
    omega

theorem total_const_zero (calls : List (List Seg)) : total calls (fun _ => 0) = 0 := by
  unfold total
  rw [List.map_const', List.sum_replicate_nat, Nat.mul_zero]

theorem mean_le {L L' : List String} (n1 : L.Nodup) (n2 : L'.Nodup) (hsub : ∀ v ∈ L', v ∈ L) (hne : L' ≠ []) {f f' : String → Rat}
    (h0 : ∀ v, 0 ≤ f v) (h : ∀ v, f v ≤ f' v) (hz : ∀ v ∈ L, v ∉ L' → f v = 0) :
    (L.map f).sum / L.length ≤ (L'.map f').sum / L'.length := by
  have e1 : (L.map f).sum = ∑ v ∈ L.toFinset, f v := (List.sum_toFinset f n1).symm
  have e2 : (L'.map f').sum = ∑ v ∈ L'.toFinset, f' v := (List.sum_toFinset f' n2).symm
  have hs : L'.toFinset ⊆ L.toFinset := fun v hv => List.mem_toFinset.2 (hsub v (List.mem_toFinset.1 hv))
  have e3 : ∑ v ∈ L'.toFinset, f v = ∑ v ∈ L.toFinset, f v :=
    Finset.sum_subset hs (fun v hv hv' => hz v (List.mem_toFinset.1 hv) (fun hm => hv' (List.mem_toFinset.2 hm)))
  have e4 : ∑ v ∈ L'.toFinset, f v ≤ ∑ v ∈ L'.toFinset, f' v := Finset.sum_le_sum (fun v _ => h v)
  have e5 : 0 ≤ ∑ v ∈ L'.toFinset, f v := Finset.sum_nonneg (fun v _ => h0 v)
  have hlen : L'.length ≤ L.length := by
    rw [← List.toFinset_card_of_nodup n1, ← List.toFinset_card_of_nodup n2]
    exact Finset.card_le_card hs
  have hpos : (0 : Rat) < L'.length := by exact_mod_cast List.length_pos_iff.2 hne
  rw [e1, e2, ← e3]
  calc (∑ v ∈ L'.toFinset, f v) / L.length ≤ (∑ v ∈ L'.toFinset, f v) / L'.length :=
        div_le_div_of_nonneg_left e5 hpos (by exact_mod_cast hlen)
    _ ≤ _ := by gcongr

theorem ratio_le {a b a' b' : Nat} (h : a ≤ a') (h1 : b' + a ≤ b + a') (h2 : a ≤ b) (h3 : a' ≤ b') : ratio a b ≤ ratio a' b' := by
  unfold ratio
  by_cases hb : b = 0
  · rw [if_pos hb]
    split
    · exact le_refl _
    · positivity
  · rw [if_neg hb]
    by_cases hb' : b' = 0
    · have : a = 0 := by omega
      subst this
      rw [if_pos hb']
      simp
    · rw [if_neg hb']
      rw [div_le_div_iff₀ (by exact_mod_cast Nat.pos_of_ne_zero hb) (by exact_mod_cast Nat.pos_of_ne_zero hb')]
      obtain ⟨k, rfl⟩ := Nat.exists_eq_add_of_le h
      have e1 : b' ≤ b + k := by omega
      have : a * b' ≤ (a + k) * b := by
        calc a * b' ≤ a * (b + k) := Nat.mul_le_mul_left _ e1
          _ = a * b + a * k := Nat.mul_add _ _ _
          _ ≤ a * b + b * k := Nat.add_le_add_left (Nat.mul_le_mul_right _ h2) _
          _ = (a + k) * b := by rw [Nat.add_mul, Nat.mul_comm k b]
      exact_mod_cast this

theorem ratio_nonneg' (a b : Nat) : 0 ≤ ratio a b := by
  unfold ratio
  split
  · exact le_refl _
  · positivity

/-- No label that both lists have has a lower value in the second. -/
def NoLower (l l' : List Metric) : Prop :=
  ∀ m ∈ l, ∀ m' ∈ l', m'.label = m.label → ∃ a b, m.value = .number (some a) ∧ m'.value = .number (some b) ∧ a ≤ b

theorem noLower_map {labels labels' : List (Int × String)} {ty : String} {f f' : String → Rat} (h : ∀ v, f v ≤ f' v) :
    NoLower (labels.map (fun x => ⟨ty, .number (some (f x.2)), some x.2⟩)) (labels'.map (fun x => ⟨ty, .number (some (f' x.2)), some x.2⟩)) := by
  intro m hm m' hm' he
  obtain ⟨x, _, rfl⟩ := List.mem_map.1 hm
  obtain ⟨x', _, rfl⟩ := List.mem_map.1 hm'
  have : x'.2 = x.2 := Option.some.inj he
  exact ⟨_, _, rfl, rfl, by rw [this]; exact h _⟩

/-- The counts of a label before and after the correction. -/
theorem AllCorrected.counts {e e' : Built} (h : AllCorrected e e') (v : String) :
    total e.calls (fun s => pixelsOf s (some v) (some v)) ≤ total e'.calls (fun s => pixelsOf s (some v) (some v)) ∧
    total e'.calls (fun s => gtPixelsOf s (some v)) = total e.calls (fun s => gtPixelsOf s (some v)) ∧
    total e'.calls (fun s => pdPixelsOf s (some v)) + total e.calls (fun s => pixelsOf s (some v) (some v))
      ≤ total e.calls (fun s => pdPixelsOf s (some v)) + total e'.calls (fun s => pixelsOf s (some v) (some v)) := by
  have hz := total_const_zero
  refine ⟨?_, ?_, ?_⟩
  · have := h.sum (f := fun _ => 0) (f' := fun _ => 0) (g := fun s => pixelsOf s (some v) (some v))
      (g' := fun s => pixelsOf s (some v) (some v)) ?_
    · simpa [hz] using this
    · rintro s s' ⟨h1, h2⟩
      simp only [Nat.zero_add]
      unfold pixelsOf
      rw [h1]
      apply List.countP_mono_left
      intro x hx hd
      obtain ⟨ha, hb⟩ := h2 x (List.mem_range.1 hx)
      simp only [decide_eq_true_eq] at hd ⊢
      rcases hb with hb | hb <;> rw [ha, hb] <;> simp [hd]
  · have e1 : ∀ s s', Corrected s s' → gtPixelsOf s' (some v) = gtPixelsOf s (some v) := by
      rintro s s' ⟨h1, h2⟩
      unfold gtPixelsOf
      rw [h1]
      apply List.countP_congr
      intro x hx
      rw [(h2 x (List.mem_range.1 hx)).1]
    have l1 := h.sum (f' := fun s => gtPixelsOf s (some v)) (g := fun _ => 0) (f := fun s => gtPixelsOf s (some v)) (g' := fun _ => 0)
      (fun s s' hc => by simp [e1 s s' hc])
    have l2 := h.sum (f' := fun _ => 0) (g := fun s => gtPixelsOf s (some v)) (f := fun _ => 0) (g' := fun s => gtPixelsOf s (some v))
      (fun s s' hc => by simp [e1 s s' hc])
    rw [hz, hz] at l1 l2
    omega
  · apply h.sum
    rintro s s' ⟨h1, h2⟩
    unfold pixelsOf pdPixelsOf
    rw [h1]
    apply countP_pair_le
    intro x hx
    obtain ⟨ha, hb⟩ := h2 x (List.mem_range.1 hx)
    rw [ha]
    by_cases hg : itemAt s.gts x = some v <;> by_cases hq : itemAt s.pds x = some v <;> rcases hb with hb | hb <;> simp [hb, hg, hq]

theorem pixels_le (s : Seg) (v : String) : pixelsOf s (some v) (some v) ≤ gtPixelsOf s (some v) ∧
    pixelsOf s (some v) (some v) ≤ pdPixelsOf s (some v) := by
  unfold pixelsOf gtPixelsOf pdPixelsOf
  constructor <;> apply List.countP_mono_left <;> intro x _ hd <;> simp only [decide_eq_true_eq] at hd ⊢
  · exact hd.1
  · exact hd.2

theorem total_le {calls : List (List Seg)} {f g : Seg → Nat} (h : ∀ s, f s ≤ g s) : total calls f ≤ total calls g := by
  unfold total
  exact List.sum_le_sum (fun s _ => h s)

/-- **C111 (segmentation).** Of two datasets with the same ground truth let the second have, at every pixel, the prediction of the first or the
true one. Then neither the accuracy nor precision, recall, F1 or IoU of any label is lower for the second; and if it has no labels that the
first has not, the mean IoU is not lower. -/
theorem C111_segmentation {e e' : Built} (h : AllCorrected e e') (hok : ∀ s ∈ e.calls.flatten, SegOk s)
    (hok' : ∀ s ∈ e'.calls.flatten, SegOk s) (hs : (e.calls.flatten.map Seg.size).sum < 2 ^ 64) (hne : e.labels ≠ []) (hne' : e'.labels ≠ []) :
    ∃ R R', e.report = .ok R ∧ e'.report = .ok R' ∧
      NoLower R.accuracy R'.accuracy ∧ NoLower R.precision R'.precision ∧ NoLower R.recall R'.recall ∧ NoLower R.f1 R'.f1 ∧
      NoLower R.iou R'.iou ∧ ((∀ v ∈ e'.labels, v ∈ e.labels) → NoLower R.meanIou R'.meanIou) ∧
      ∀ v ∈ e.labels, v ∈ e'.labels → ∀ l ∈ [(R.precision, R'.precision), (R.recall, R'.recall), (R.f1, R'.f1), (R.iou, R'.iou)],
        (∃ m ∈ l.1, m.label = some v) ∧ ∃ m ∈ l.2, m.label = some v := by
  have hsize : total e'.calls Seg.size = total e.calls Seg.size := by
    have l1 := h.sum (f' := Seg.size) (g := fun _ => 0) (f := Seg.size) (g' := fun _ => 0) (fun s s' hc => by simp [hc.1])
    have l2 := h.sum (f' := fun _ => 0) (g := Seg.size) (f := fun _ => 0) (g' := Seg.size) (fun s s' hc => by simp [hc.1])
    have hz := total_const_zero
    rw [hz, hz] at l1 l2
    omega
  have hs' : (e'.calls.flatten.map Seg.size).sum < 2 ^ 64 := by
    have : (e'.calls.flatten.map Seg.size).sum = (e.calls.flatten.map Seg.size).sum := hsize
    omega
  obtain ⟨p, R, r0, ra, _, rm, r4, r5, r6, r7⟩ := C65_report e.calls hok hs e.stored hne
  obtain ⟨p', R', r0', ra', _, rm', r4', r5', r6', r7'⟩ := C65_report e'.calls hok' hs' e'.stored hne'
  beta_reduce at rm r4 r5 r6 r7 rm' r4' r5' r6' r7'
  have hc := h.counts
  have hb : ∀ v, total e.calls (fun s => pixelsOf s (some v) (some v)) ≤ total e.calls (fun s => gtPixelsOf s (some v)) :=
    fun v => total_le (fun s => (pixels_le s v).1)
  have hb' : ∀ v, total e'.calls (fun s => pixelsOf s (some v) (some v)) ≤ total e'.calls (fun s => gtPixelsOf s (some v)) :=
    fun v => total_le (fun s => (pixels_le s v).1)
  have hd : ∀ v, total e.calls (fun s => pixelsOf s (some v) (some v)) ≤ total e.calls (fun s => pdPixelsOf s (some v)) :=
    fun v => total_le (fun s => (pixels_le s v).2)
  have hd' : ∀ v, total e'.calls (fun s => pixelsOf s (some v) (some v)) ≤ total e'.calls (fun s => pdPixelsOf s (some v)) :=
    fun v => total_le (fun s => (pixels_le s v).2)
  have hiou : ∀ v, ratio (total e.calls (fun s => pixelsOf s (some v) (some v)))
      (total e.calls (fun s => gtPixelsOf s (some v)) + total e.calls (fun s => pdPixelsOf s (some v))
        - total e.calls (fun s => pixelsOf s (some v) (some v)))
      ≤ ratio (total e'.calls (fun s => pixelsOf s (some v) (some v)))
      (total e'.calls (fun s => gtPixelsOf s (some v)) + total e'.calls (fun s => pdPixelsOf s (some v))
        - total e'.calls (fun s => pixelsOf s (some v) (some v))) := by
    intro v
    obtain ⟨c1, c2, c3⟩ := hc v
    have := hb v
    have := hb' v
    have := hd v
    have := hd' v
    apply ratio_le <;> omega
  have hpr : ∀ v, ratio (total e.calls (fun s => pixelsOf s (some v) (some v))) (total e.calls (fun s => pdPixelsOf s (some v)))
      ≤ ratio (total e'.calls (fun s => pixelsOf s (some v) (some v))) (total e'.calls (fun s => pdPixelsOf s (some v))) := by
    intro v
    obtain ⟨c1, c2, c3⟩ := hc v
    have := hb v
    have := hb' v
    have := hd v
    have := hd' v
    apply ratio_le <;> omega
  have hre : ∀ v, ratio (total e.calls (fun s => pixelsOf s (some v) (some v))) (total e.calls (fun s => gtPixelsOf s (some v)))
      ≤ ratio (total e'.calls (fun s => pixelsOf s (some v) (some v))) (total e'.calls (fun s => gtPixelsOf s (some v))) := by
    intro v
    obtain ⟨c1, c2, c3⟩ := hc v
    have := hb v
    have := hb' v
    have := hd v
    have := hd' v
    apply ratio_le <;> omega
  have hf1 : ∀ v, ratio (2 * total e.calls (fun s => pixelsOf s (some v) (some v))) (total e.calls (fun s => gtPixelsOf s (some v)) + total e.calls (fun s => pdPixelsOf s (some v)))
      ≤ ratio (2 * total e'.calls (fun s => pixelsOf s (some v) (some v))) (total e'.calls (fun s => gtPixelsOf s (some v)) + total e'.calls (fun s => pdPixelsOf s (some v))) := by
    intro v
    obtain ⟨c1, c2, c3⟩ := hc v
    have := hb v
    have := hb' v
    have := hd v
    have := hd' v
    apply ratio_le <;> omega
  refine ⟨R, R', r0, r0', ?_, ?_, ?_, ?_, ?_, ?_, ?_⟩
  · rw [ra, ra']
    intro m hm m' hm' _
    rw [List.mem_singleton] at hm hm'
    subst hm hm'
    refine ⟨_, _, rfl, rfl, ?_⟩
    have hle : total e.calls (fun s => (List.range s.size).countP (fun x => decide (itemAt s.gts x = itemAt s.pds x)))
        ≤ total e'.calls (fun s => (List.range s.size).countP (fun x => decide (itemAt s.gts x = itemAt s.pds x))) := by
      have := h.sum (f := fun _ => 0) (f' := fun _ => 0)
        (g := fun s => (List.range s.size).countP (fun x => decide (itemAt s.gts x = itemAt s.pds x)))
        (g' := fun s => (List.range s.size).countP (fun x => decide (itemAt s.gts x = itemAt s.pds x))) ?_
      · have hz := total_const_zero
        rw [hz, hz] at this
        omega
      · rintro s s' ⟨h1, h2⟩
        simp only [Nat.zero_add]
        rw [h1]
        apply List.countP_mono_left
        intro x hx hd
        obtain ⟨ha, hb⟩ := h2 x (List.mem_range.1 hx)
        simp only [decide_eq_true_eq] at hd ⊢
        rcases hb with hb | hb <;> rw [ha, hb]
        exact hd
    have hall : ∀ calls, total calls (fun s => (List.range s.size).countP (fun x => decide (itemAt s.gts x = itemAt s.pds x)))
        ≤ total calls Seg.size := by
      intro calls
      apply total_le
      intro s
      exact List.countP_le_length.trans (by simp)
    have := hall e.calls
    have := hall e'.calls
    apply ratio_le <;> omega
  · rw [r4, r4']
    exact noLower_map hpr
  · rw [r5, r5']
    exact noLower_map hre
  · rw [r6, r6']
    exact noLower_map hf1
  · rw [r7, r7']
    exact noLower_map hiou
  · intro hsub
    rw [rm, rm']
    intro m hm m' hm' _
    rw [List.mem_singleton] at hm hm'
    subst hm hm'
    refine ⟨_, _, rfl, rfl, ?_⟩
    have n1 : e.labels.Nodup := (C38_labels e.calls).1
    have n2 : e'.labels.Nodup := (C38_labels e'.calls).1
    refine mean_le n1 n2 hsub hne' (fun v => ratio_nonneg' _ _) hiou (fun v _ hv => ?_)
    have h0 : total e'.calls (fun s => pixelsOf s (some v) (some v)) = 0 := by
      unfold total
      rw [List.sum_eq_zero]
      intro n hn
      obtain ⟨s, hs, rfl⟩ := List.mem_map.1 hn
      unfold pixelsOf
      rw [List.countP_eq_zero]
      intro x _ he
      obtain ⟨it, hit, hl⟩ := itemAt_label (decide_eq_true_eq.mp he).1
      exact hv (((C38_labels e'.calls).2 v).2 ⟨s, hs, it, List.mem_append_left _ hit, hl⟩)
    have h1 : total e.calls (fun s => pixelsOf s (some v) (some v)) = 0 := by
      have := (hc v).1
      omega
    rw [h1]
    unfold ratio
    simp
  · intro v hv hv' l hl
    obtain ⟨lb, hlb, hlv⟩ := List.mem_map.1 (p.mem_iff.2 hv)
    obtain ⟨lb', hlb', hlv'⟩ := List.mem_map.1 (p'.mem_iff.2 hv')
    simp only [List.mem_cons, List.not_mem_nil, or_false] at hl
    rcases hl with rfl | rfl | rfl | rfl <;> dsimp only
    · rw [r4, r4']
      exact ⟨⟨_, List.mem_map_of_mem hlb, by rw [hlv]⟩, _, List.mem_map_of_mem hlb', by rw [hlv']⟩
    · rw [r5, r5']
      exact ⟨⟨_, List.mem_map_of_mem hlb, by rw [hlv]⟩, _, List.mem_map_of_mem hlb', by rw [hlv']⟩
    · rw [r6, r6']
      exact ⟨⟨_, List.mem_map_of_mem hlb, by rw [hlv]⟩, _, List.mem_map_of_mem hlb', by rw [hlv']⟩
    · rw [r7, r7']
      exact ⟨⟨_, List.mem_map_of_mem hlb, by rw [hlv]⟩, _, List.mem_map_of_mem hlb', by rw [hlv']⟩

/-- An image of four pixels, "a" on the left and "b" on the right, with two wrong pixels. -/
def wrongSeg : Seg := ⟨"u", 4, [⟨[true, true, false, false], "a", none⟩, ⟨[false, false, true, true], "b", none⟩],
  [⟨[true, false, true, false], "a", none⟩, ⟨[false, true, false, true], "b", none⟩], none⟩

/-- The same image with the second pixel corrected. -/
def betterSeg : Seg := { wrongSeg with pds := [⟨[true, true, true, false], "a", none⟩, ⟨[false, false, false, true], "b", none⟩] }

theorem four_ok {m m' : Mask} {a b : String} (hl : m.length = 4) (hl' : m'.length = 4) (hab : a ≠ b)
    (h : ∀ x < 4, ¬ (bit m x = true ∧ bit m' x = true)) : ItemsOk 4 [⟨m, a, none⟩, ⟨m', b, none⟩] := by
  refine ⟨by simp [hl, hl'], ?_, by simp [hab]⟩
  unfold Disjoint
  rw [List.map_cons, List.map_cons, List.map_nil, List.pairwise_pair]
  intro x hx
  by_cases hx4 : x < 4
  · exact h x hx4 hx
  · have := hx.1
    unfold bit at this
    rw [List.getD_eq_default _ _ (by show m.length ≤ x; omega)] at this
    cases this

/-- The conditions of `C111_segmentation` are met. -/
example : AllCorrected ⟨[[wrongSeg]], _, List.Perm.refl _⟩ ⟨[[betterSeg]], _, List.Perm.refl _⟩ ∧ SegOk wrongSeg ∧ SegOk betterSeg ∧
    wrongSeg ≠ betterSeg ∧ (Loader.init.addAll [[wrongSeg]]).labels = ["a", "b"] ∧ (Loader.init.addAll [[betterSeg]]).labels = ["a", "b"] := by
  refine ⟨⟨[betterSeg], List.Perm.refl _, .cons ⟨rfl, ?_⟩ .nil⟩, ⟨?_, ?_⟩, ⟨?_, ?_⟩, by decide +kernel, by decide +kernel, by decide +kernel⟩
  · decide +kernel
  all_goals exact four_ok rfl rfl (by decide) (by decide)

end Verif.Segmentation
