import Verif.Segmentation.CorrectProps
import Mathlib.Data.Finset.Max

/-! # C112: merging labels (`semantic_segmentation/computation.py`, `semantic_segmentation/evaluator.py`) -/

namespace Verif.Segmentation

open Verif.Shared

/-- The second image is the first one with coarser labels: `ρ` gives the new label of an old one, so that masks whose labels get the same name
are united. -/
def Merged (ρ : String → String) (s s' : Seg) : Prop :=
  s'.size = s.size ∧ ∀ x < s.size, itemAt s'.gts x = (itemAt s.gts x).map ρ ∧ itemAt s'.pds x = (itemAt s.pds x).map ρ

/-- The images of the second evaluator, in some order, are those of the first with coarser labels. -/
def AllMerged (ρ : String → String) (e e' : Built) : Prop :=
  (∃ l, e'.calls.flatten.Perm l ∧ List.Forall₂ (Merged ρ) e.calls.flatten l) ∧ ∀ w, w ∈ e'.labels ↔ ∃ v ∈ e.labels, ρ v = w

/-- The old labels of a new one. -/
def parts (ρ : String → String) (e : Built) (w : String) : List String := e.labels.filter (fun v => decide (ρ v = w))

theorem countP_mem {α : Type} [DecidableEq α] {S : List α} (h : S.Nodup) {l : List Nat} (f : Nat → Option α) :
    l.countP (fun x => decide (∃ v ∈ S, f x = some v)) = (S.map (fun v => l.countP (fun x => decide (f x = some v)))).sum := by
  induction S with
  | nil => simp
  | cons a S ih =>
    rw [List.nodup_cons] at h
    rw [List.map_cons, List.sum_cons, ← ih h.2]
    clear ih
    induction l with
    | nil => rfl
    | cons x l ihl =>
      simp only [List.countP_cons]
      rw [ihl]
      by_cases h1 : f x = some a
      · have h2 : ¬ ∃ v ∈ S, f x = some v := by
          rintro ⟨v, hv, hx⟩
          rw [h1] at hx
          exact h.1 (Option.some.inj hx ▸ hv)
        have h3 : ∃ v ∈ a :: S, f x = some v := ⟨a, List.mem_cons_self, h1⟩
        rw [if_pos (decide_eq_true h3), if_pos (decide_eq_true h1), if_neg (by simpa using h2)]
        omega
      · by_cases h2 : ∃ v ∈ S, f x = some v
        · have h3 : ∃ v ∈ a :: S, f x = some v := by
            obtain ⟨v, hv, hx⟩ := h2
            exact ⟨v, List.mem_cons_of_mem _ hv, hx⟩
          rw [if_pos (decide_eq_true h3), if_neg (by simpa using h1), if_pos (decide_eq_true h2)]
          omega
        · have h3 : ¬ ∃ v ∈ a :: S, f x = some v := by
            rintro ⟨v, hv, hx⟩
            rcases List.mem_cons.1 hv with rfl | hv
            · exact h1 hx
            · exact h2 ⟨v, hv, hx⟩
          rw [if_neg (by simpa using h3), if_neg (by simpa using h1), if_neg (by simpa using h2)]
          omega

theorem AllMerged.total {ρ : String → String} {e e' : Built} (h : AllMerged ρ e e') {f f' : Seg → Nat}
    (hf : ∀ s ∈ e.calls.flatten, ∀ s', Merged ρ s s' → f s ≤ f' s') : total e.calls f ≤ total e'.calls f' := by
  obtain ⟨⟨l, hp, hl⟩, -⟩ := h
  unfold Verif.Segmentation.total
  rw [(hp.map f').sum_eq]
  clear hp
  generalize e.calls.flatten = k at hl hf
  induction hl with
  | nil => simp
  | cons hab _ ih =>
    have := hf _ List.mem_cons_self _ hab
    have := ih (fun s hs => hf s (List.mem_cons_of_mem _ hs))
    simp only [List.map_cons, List.sum_cons]
    omega

theorem AllMerged.total_ge {ρ : String → String} {e e' : Built} (h : AllMerged ρ e e') {f f' : Seg → Nat}
    (hf : ∀ s ∈ e.calls.flatten, ∀ s', Merged ρ s s' → f' s' ≤ f s) : Verif.Segmentation.total e'.calls f' ≤ Verif.Segmentation.total e.calls f := by
  obtain ⟨⟨l, hp, hl⟩, -⟩ := h
  unfold Verif.Segmentation.total
  rw [(hp.map f').sum_eq]
  clear hp
  generalize e.calls.flatten = k at hl hf
  induction hl with
  | nil => simp
  | cons hab _ ih =>
    have := hf _ List.mem_cons_self _ hab
    have := ih (fun s hs => hf s (List.mem_cons_of_mem _ hs))
    simp only [List.map_cons, List.sum_cons]
    omega

theorem parts_nodup (ρ : String → String) (e : Built) (w : String) : (parts ρ e w).Nodup := (C38_labels e.calls).1.filter _

theorem mem_parts {ρ : String → String} {e : Built} {w v : String} : v ∈ parts ρ e w ↔ v ∈ e.labels ∧ ρ v = w := by
  unfold parts
  simp

/-- A pixel has the new label if it has one of its parts. -/
theorem part_iff {ρ : String → String} {e : Built} {w : String} {s : Seg} (hs : s ∈ e.calls.flatten) (x : Nat) :
    ((itemAt s.gts x).map ρ = some w ↔ ∃ v ∈ parts ρ e w, itemAt s.gts x = some v) ∧
    ((itemAt s.pds x).map ρ = some w ↔ ∃ v ∈ parts ρ e w, itemAt s.pds x = some v) := by
  constructor <;> constructor
  · intro h
    obtain ⟨v, hv, rfl⟩ := Option.map_eq_some_iff.1 h
    obtain ⟨it, hit, hl⟩ := itemAt_label hv
    exact ⟨v, mem_parts.2 ⟨((C38_labels e.calls).2 v).2 ⟨s, hs, it, List.mem_append_left _ hit, hl⟩, rfl⟩, hv⟩
  · rintro ⟨v, hv, hx⟩
    rw [hx, Option.map_some, (mem_parts.1 hv).2]
  · intro h
    obtain ⟨v, hv, rfl⟩ := Option.map_eq_some_iff.1 h
    obtain ⟨it, hit, hl⟩ := itemAt_label hv
    exact ⟨v, mem_parts.2 ⟨((C38_labels e.calls).2 v).2 ⟨s, hs, it, List.mem_append_right _ hit, hl⟩, rfl⟩, hv⟩
  · rintro ⟨v, hv, hx⟩
    rw [hx, Option.map_some, (mem_parts.1 hv).2]

/-- The pixels of a new label are those of its parts; among them at least the true positives of the parts are true positives. -/
theorem AllMerged.counts {ρ : String → String} {e e' : Built} (h : AllMerged ρ e e') (w : String) :
    Verif.Segmentation.total e'.calls (fun s => gtPixelsOf s (some w))
      = ((parts ρ e w).map (fun v => Verif.Segmentation.total e.calls (fun s => gtPixelsOf s (some v)))).sum ∧
    Verif.Segmentation.total e'.calls (fun s => pdPixelsOf s (some w))
      = ((parts ρ e w).map (fun v => Verif.Segmentation.total e.calls (fun s => pdPixelsOf s (some v)))).sum ∧
    ((parts ρ e w).map (fun v => Verif.Segmentation.total e.calls (fun s => pixelsOf s (some v) (some v)))).sum
      ≤ Verif.Segmentation.total e'.calls (fun s => pixelsOf s (some w) (some w)) := by
  have g1 : ∀ s ∈ e.calls.flatten, ∀ s', Merged ρ s s' →
      gtPixelsOf s' (some w) = ((parts ρ e w).map (fun v => gtPixelsOf s (some v))).sum := by
    intro s hs s' hm
    unfold gtPixelsOf
    rw [← countP_mem (parts_nodup ρ e w), hm.1]
    apply List.countP_congr
    intro x hx
    rw [(hm.2 x (List.mem_range.1 hx)).1]
    simp only [decide_eq_true_eq]
    exact (part_iff hs x).1
  have g2 : ∀ s ∈ e.calls.flatten, ∀ s', Merged ρ s s' →
      pdPixelsOf s' (some w) = ((parts ρ e w).map (fun v => pdPixelsOf s (some v))).sum := by
    intro s hs s' hm
    unfold pdPixelsOf
    rw [← countP_mem (parts_nodup ρ e w), hm.1]
    apply List.countP_congr
    intro x hx
    rw [(hm.2 x (List.mem_range.1 hx)).2]
    simp only [decide_eq_true_eq]
    exact (part_iff hs x).2
  have g3 : ∀ s ∈ e.calls.flatten, ∀ s', Merged ρ s s' →
      ((parts ρ e w).map (fun v => pixelsOf s (some v) (some v))).sum ≤ pixelsOf s' (some w) (some w) := by
    intro s hs s' hm
    unfold pixelsOf
    have : ∀ v, (List.range s.size).countP (fun x => decide (itemAt s.gts x = some v ∧ itemAt s.pds x = some v))
        = (List.range s.size).countP (fun x => decide ((if itemAt s.gts x = itemAt s.pds x then itemAt s.gts x else none) = some v)) := by
      intro v
      apply List.countP_congr
      intro x _
      simp only [decide_eq_true_eq]
      constructor
      · rintro ⟨h1, h2⟩
        rw [if_pos (by rw [h1, h2]), h1]
      · intro h1
        split at h1
        · rename_i he
          exact ⟨h1, he ▸ h1⟩
        · cases h1
    simp only [this]
    rw [← countP_mem (parts_nodup ρ e w), hm.1]
    apply List.countP_mono_left
    intro x hx hd
    rw [(hm.2 x (List.mem_range.1 hx)).1, (hm.2 x (List.mem_range.1 hx)).2]
    simp only [decide_eq_true_eq] at hd ⊢
    obtain ⟨v, hv, h1⟩ := hd
    split at h1
    · rename_i he
      exact ⟨(part_iff hs x).1.2 ⟨v, hv, h1⟩, (part_iff hs x).2.2 ⟨v, hv, he ▸ h1⟩⟩
    · cases h1
  unfold Verif.Segmentation.total at *
  refine ⟨?_, ?_, ?_⟩
  · rw [← sum_swap]
    exact le_antisymm (h.total_ge (f' := fun s => gtPixelsOf s (some w)) (fun s hs s' hm => le_of_eq (g1 s hs s' hm)))
      (h.total (f' := fun s => gtPixelsOf s (some w)) (fun s hs s' hm => le_of_eq (g1 s hs s' hm).symm))
  · rw [← sum_swap]
    exact le_antisymm (h.total_ge (f' := fun s => pdPixelsOf s (some w)) (fun s hs s' hm => le_of_eq (g2 s hs s' hm)))
      (h.total (f' := fun s => pdPixelsOf s (some w)) (fun s hs s' hm => le_of_eq (g2 s hs s' hm).symm))
  · rw [← sum_swap]
    exact h.total (f' := fun s => pixelsOf s (some w) (some w)) g3

/-- Quotients of sums are not below the least of the quotients. -/
theorem ratio_parts {S : List String} (hS : S ≠ []) {a b : String → Nat} {a' b' : Nat} (ha : (S.map a).sum ≤ a')
    (hb : b' ≤ (S.map b).sum) (h0 : b' = 0 → (S.map b).sum = 0) {c : Rat} (h : ∀ v ∈ S, c ≤ ratio (a v) (b v)) : c ≤ ratio a' b' := by
  by_cases hc : c ≤ 0
  · exact hc.trans (ratio_nonneg' _ _)
  · have hpos : 0 < c := lt_of_not_ge hc
    have hle : ∀ v ∈ S, c * (b v : Rat) ≤ (a v : Rat) := by
      intro v hv
      have := h v hv
      unfold ratio at this
      split at this
      · exact absurd this hc
      · rename_i hne
        rwa [le_div_iff₀ (by exact_mod_cast Nat.pos_of_ne_zero hne)] at this
    have hsum : c * ((S.map b).sum : Nat) ≤ ((S.map a).sum : Nat) := by
      clear hS ha hb h0 h
      induction S with
      | nil => simp
      | cons v S ih =>
        have h1 := ih (fun v hv => hle v (List.mem_cons_of_mem _ hv))
        have h2 := hle v List.mem_cons_self
        simp only [List.map_cons, List.sum_cons]
        push_cast
        rw [mul_add]
        linarith
    have hall : c * (b' : Rat) ≤ (a' : Rat) := by
      have e1 : (b' : Rat) ≤ ((S.map b).sum : Nat) := by exact_mod_cast hb
      have e2 : (((S.map a).sum : Nat) : Rat) ≤ a' := by exact_mod_cast ha
      have := mul_le_mul_of_nonneg_left e1 hpos.le
      linarith
    unfold ratio
    split
    · rename_i hz
      exfalso
      obtain ⟨v, hv⟩ := List.exists_mem_of_ne_nil _ hS
      have hbv : b v = 0 := by
        have := List.single_le_sum (fun x _ => Nat.zero_le x) (b v) (List.mem_map_of_mem (f := b) hv)
        have := h0 hz
        omega
      have := h v hv
      rw [hbv] at this
      unfold ratio at this
      simp at this
      exact hc this
    · rename_i hne
      rw [le_div_iff₀ (by exact_mod_cast Nat.pos_of_ne_zero hne)]
      exact hall

/-- The value of every label of the second list is at least the least value of the labels of which it is composed. -/
def NoLowerThanParts (ρ : String → String) (l l' : List Metric) : Prop :=
  ∀ m' ∈ l', ∃ w b, m'.label = some w ∧ m'.value = .number (some b) ∧ ∃ m ∈ l, ∃ v a, m.label = some v ∧ ρ v = w ∧ m.value = .number (some a) ∧ a ≤ b

theorem noLowerThanParts {ρ : String → String} {e e' : Built} (h : AllMerged ρ e e') {labels labels' : List (Int × String)}
    (hl : (labels.map Prod.snd).Perm e.labels) (hl' : (labels'.map Prod.snd).Perm e'.labels) {ty : String} {a b a' b' : String → Nat}
    (ha : ∀ w, ((parts ρ e w).map a).sum ≤ a' w) (hb : ∀ w, b' w ≤ ((parts ρ e w).map b).sum)
    (h0 : ∀ w, b' w = 0 → ((parts ρ e w).map b).sum = 0) :
    NoLowerThanParts ρ (labels.map (fun x => ⟨ty, .number (some (ratio (a x.2) (b x.2))), some x.2⟩))
      (labels'.map (fun x => ⟨ty, .number (some (ratio (a' x.2) (b' x.2))), some x.2⟩)) := by
  intro m' hm'
  obtain ⟨x, hx, rfl⟩ := List.mem_map.1 hm'
  refine ⟨_, _, rfl, rfl, ?_⟩
  have hw : x.2 ∈ e'.labels := hl'.mem_iff.1 (List.mem_map_of_mem hx)
  obtain ⟨v0, hv0, hρ0⟩ := (h.2 _).1 hw
  have hne : (parts ρ e x.2) ≠ [] := List.ne_nil_of_mem (mem_parts.2 ⟨hv0, hρ0⟩)
  obtain ⟨v, hv, hmin⟩ := Finset.exists_min_image (parts ρ e x.2).toFinset (fun v => ratio (a v) (b v))
    ⟨v0, List.mem_toFinset.2 (mem_parts.2 ⟨hv0, hρ0⟩)⟩
  rw [List.mem_toFinset, mem_parts] at hv
  obtain ⟨y, hy, hyv⟩ := List.mem_map.1 (hl.mem_iff.2 hv.1)
  refine ⟨_, List.mem_map_of_mem hy, y.2, _, rfl, by rw [hyv]; exact hv.2, rfl, ?_⟩
  rw [hyv]
  exact ratio_parts hne (ha _) (hb _) (h0 _) (fun u hu => hmin u (List.mem_toFinset.2 hu))

/-- **C112 (segmentation).** The labels of a dataset are made coarser, labels with the same new name being united in all images. The accuracy is not
lower; and precision, recall, F1 and IoU of a new label are not lower than the least of those of its parts. -/
theorem C112_segmentation {ρ : String → String} {e e' : Built} (h : AllMerged ρ e e') (hok : ∀ s ∈ e.calls.flatten, SegOk s)
    (hok' : ∀ s ∈ e'.calls.flatten, SegOk s) (hs : (e.calls.flatten.map Seg.size).sum < 2 ^ 64) (hne : e.labels ≠ []) :
    ∃ R R', e.report = .ok R ∧ e'.report = .ok R' ∧ NoLower R.accuracy R'.accuracy ∧
      NoLowerThanParts ρ R.precision R'.precision ∧ NoLowerThanParts ρ R.recall R'.recall ∧ NoLowerThanParts ρ R.f1 R'.f1 ∧
      NoLowerThanParts ρ R.iou R'.iou ∧
      ∀ w ∈ e'.labels, ∀ l ∈ [R'.precision, R'.recall, R'.f1, R'.iou], ∃ m ∈ l, m.label = some w := by
  have hsize : Verif.Segmentation.total e'.calls Seg.size = Verif.Segmentation.total e.calls Seg.size :=
    le_antisymm (h.total_ge (fun s _ s' hm => le_of_eq hm.1)) (h.total (fun s _ s' hm => le_of_eq hm.1.symm))
  have hs' : (e'.calls.flatten.map Seg.size).sum < 2 ^ 64 := by
    have : (e'.calls.flatten.map Seg.size).sum = (e.calls.flatten.map Seg.size).sum := hsize
    omega
  have hne' : e'.labels ≠ [] := by
    obtain ⟨v, hv⟩ := List.exists_mem_of_ne_nil _ hne
    exact List.ne_nil_of_mem ((h.2 (ρ v)).2 ⟨v, hv, rfl⟩)
  obtain ⟨p, R, r0, ra, _, _, r4, r5, r6, r7⟩ := C65_report e.calls hok hs e.stored hne
  obtain ⟨p', R', r0', ra', _, _, r4', r5', r6', r7'⟩ := C65_report e'.calls hok' hs' e'.stored hne'
  beta_reduce at r4 r5 r6 r7 r4' r5' r6' r7'
  have hc := h.counts
  have hd : ∀ (b : Built) v, Verif.Segmentation.total b.calls (fun s => pixelsOf s (some v) (some v))
      ≤ Verif.Segmentation.total b.calls (fun s => gtPixelsOf s (some v)) ∧
      Verif.Segmentation.total b.calls (fun s => pixelsOf s (some v) (some v))
      ≤ Verif.Segmentation.total b.calls (fun s => pdPixelsOf s (some v)) :=
    fun b v => ⟨total_le (fun s => (pixels_le s v).1), total_le (fun s => (pixels_le s v).2)⟩
  have hadd : ∀ (S : List String) (f g : String → Nat), (S.map (fun v => f v + g v)).sum = (S.map f).sum + (S.map g).sum := by
    intro S f g
    induction S with
    | nil => rfl
    | cons v S ih => simp only [List.map_cons, List.sum_cons, ih]; omega
  have hmul : ∀ (S : List String) (f : String → Nat), (S.map (fun v => 2 * f v)).sum = 2 * (S.map f).sum := by
    intro S f
    induction S with
    | nil => rfl
    | cons v S ih => simp only [List.map_cons, List.sum_cons, ih]; omega
  have hsub : ∀ (S : List String) (f g k : String → Nat), (∀ v, k v ≤ f v) → (S.map (fun v => f v + g v - k v)).sum + (S.map k).sum
      = (S.map f).sum + (S.map g).sum := by
    intro S f g k hk
    induction S with
    | nil => rfl
    | cons v S ih =>
      have := hk v
      simp only [List.map_cons, List.sum_cons]
      omega
  refine ⟨R, R', r0, r0', ?_, ?_, ?_, ?_, ?_, ?_⟩
  · rw [ra, ra']
    intro m hm m' hm' _
    rw [List.mem_singleton] at hm hm'
    subst hm hm'
    refine ⟨_, _, rfl, rfl, ?_⟩
    have hle : Verif.Segmentation.total e.calls (fun s => (List.range s.size).countP (fun x => decide (itemAt s.gts x = itemAt s.pds x)))
        ≤ Verif.Segmentation.total e'.calls (fun s => (List.range s.size).countP (fun x => decide (itemAt s.gts x = itemAt s.pds x))) := by
      apply h.total
      intro s _ s' hm
      rw [hm.1]
      apply List.countP_mono_left
      intro x hx hd
      rw [(hm.2 x (List.mem_range.1 hx)).1, (hm.2 x (List.mem_range.1 hx)).2]
      simp only [decide_eq_true_eq] at hd ⊢
      rw [hd]
    have hall : ∀ calls, Verif.Segmentation.total calls (fun s => (List.range s.size).countP (fun x => decide (itemAt s.gts x = itemAt s.pds x)))
        ≤ Verif.Segmentation.total calls Seg.size := by
      intro calls
      apply total_le
      intro s
      exact List.countP_le_length.trans (by simp)
    have := hall e.calls
    have := hall e'.calls
    apply ratio_le <;> omega
  · rw [r4, r4']
    exact noLowerThanParts h p p' (ty := "Precision")
      (a := fun v => Verif.Segmentation.total e.calls (fun s => pixelsOf s (some v) (some v)))
      (b := fun v => Verif.Segmentation.total e.calls (fun s => pdPixelsOf s (some v)))
      (a' := fun v => Verif.Segmentation.total e'.calls (fun s => pixelsOf s (some v) (some v)))
      (b' := fun v => Verif.Segmentation.total e'.calls (fun s => pdPixelsOf s (some v)))
      (fun w => (hc w).2.2) (fun w => le_of_eq (hc w).2.1) (fun w hw => by rw [← (hc w).2.1]; exact hw)
  · rw [r5, r5']
    exact noLowerThanParts h p p' (ty := "Recall")
      (a := fun v => Verif.Segmentation.total e.calls (fun s => pixelsOf s (some v) (some v)))
      (b := fun v => Verif.Segmentation.total e.calls (fun s => gtPixelsOf s (some v)))
      (a' := fun v => Verif.Segmentation.total e'.calls (fun s => pixelsOf s (some v) (some v)))
      (b' := fun v => Verif.Segmentation.total e'.calls (fun s => gtPixelsOf s (some v)))
      (fun w => (hc w).2.2) (fun w => le_of_eq (hc w).1) (fun w hw => by rw [← (hc w).1]; exact hw)
  · rw [r6, r6']
    refine noLowerThanParts h p p' (ty := "F1")
      (a := fun v => 2 * Verif.Segmentation.total e.calls (fun s => pixelsOf s (some v) (some v)))
      (b := fun v => Verif.Segmentation.total e.calls (fun s => gtPixelsOf s (some v)) + Verif.Segmentation.total e.calls (fun s => pdPixelsOf s (some v)))
      (a' := fun v => 2 * Verif.Segmentation.total e'.calls (fun s => pixelsOf s (some v) (some v)))
      (b' := fun v => Verif.Segmentation.total e'.calls (fun s => gtPixelsOf s (some v)) + Verif.Segmentation.total e'.calls (fun s => pdPixelsOf s (some v)))
      (fun w => ?_) (fun w => ?_) (fun w hw => ?_)
    · rw [hmul]
      have := (hc w).2.2
      omega
    · rw [hadd, (hc w).1, (hc w).2.1]
    · rw [hadd, ← (hc w).1, ← (hc w).2.1]
      exact hw
  · rw [r7, r7']
    refine noLowerThanParts h p p' (ty := "IOU")
      (a := fun v => Verif.Segmentation.total e.calls (fun s => pixelsOf s (some v) (some v)))
      (b := fun v => Verif.Segmentation.total e.calls (fun s => gtPixelsOf s (some v)) + Verif.Segmentation.total e.calls (fun s => pdPixelsOf s (some v))
        - Verif.Segmentation.total e.calls (fun s => pixelsOf s (some v) (some v)))
      (a' := fun v => Verif.Segmentation.total e'.calls (fun s => pixelsOf s (some v) (some v)))
      (b' := fun v => Verif.Segmentation.total e'.calls (fun s => gtPixelsOf s (some v)) + Verif.Segmentation.total e'.calls (fun s => pdPixelsOf s (some v))
        - Verif.Segmentation.total e'.calls (fun s => pixelsOf s (some v) (some v)))
      (fun w => (hc w).2.2) (fun w => ?_) (fun w hw => ?_)
    · have := hsub (parts ρ e w) _ (fun v => Verif.Segmentation.total e.calls (fun s => pdPixelsOf s (some v))) _ (fun v => (hd e v).1)
      obtain ⟨c1, c2, c3⟩ := hc w
      omega
    · have := hsub (parts ρ e w) _ (fun v => Verif.Segmentation.total e.calls (fun s => pdPixelsOf s (some v))) _ (fun v => (hd e v).1)
      obtain ⟨c1, c2, c3⟩ := hc w
      have := hd e' w
      omega
  · intro w hw l hl
    obtain ⟨lb, hlb, hlv⟩ := List.mem_map.1 (p'.mem_iff.2 hw)
    simp only [List.mem_cons, List.not_mem_nil, or_false] at hl
    rcases hl with rfl | rfl | rfl | rfl
    · rw [r4']
      exact ⟨_, List.mem_map_of_mem hlb, by rw [hlv]⟩
    · rw [r5']
      exact ⟨_, List.mem_map_of_mem hlb, by rw [hlv]⟩
    · rw [r6']
      exact ⟨_, List.mem_map_of_mem hlb, by rw [hlv]⟩
    · rw [r7']
      exact ⟨_, List.mem_map_of_mem hlb, by rw [hlv]⟩

/-- The image `wrongSeg` with both labels called "c". -/
def coarseSeg : Seg := { wrongSeg with gts := [⟨[true, true, true, true], "c", none⟩], pds := [⟨[true, true, true, true], "c", none⟩] }

/-- The conditions of `C112_segmentation` are met. -/
example : AllMerged (fun _ => "c") ⟨[[wrongSeg]], _, List.Perm.refl _⟩ ⟨[[coarseSeg]], _, List.Perm.refl _⟩ ∧ SegOk wrongSeg ∧ SegOk coarseSeg := by
  have l1 : (Loader.init.addAll [[wrongSeg]]).labels = ["a", "b"] := by decide +kernel
  have l2 : (Loader.init.addAll [[coarseSeg]]).labels = ["c"] := by decide +kernel
  refine ⟨⟨⟨[coarseSeg], List.Perm.refl _, .cons ⟨rfl, ?_⟩ .nil⟩, ?_⟩, ⟨?_, ?_⟩, ⟨?_, ?_⟩⟩
  · decide +kernel
  · intro w
    show w ∈ (Loader.init.addAll [[coarseSeg]]).labels ↔ ∃ v ∈ (Loader.init.addAll [[wrongSeg]]).labels, "c" = w
    rw [l1, l2]
    simp [eq_comm]
  · exact four_ok rfl rfl (by decide) (by decide)
  · exact four_ok rfl rfl (by decide) (by decide)
  · exact ⟨by simp [coarseSeg, wrongSeg], by simp [Disjoint, coarseSeg], by decide⟩
  · exact ⟨by simp [coarseSeg, wrongSeg], by simp [Disjoint, coarseSeg], by decide⟩

end Verif.Segmentation
