import Verif.Segmentation.ShardProps

/-! # C85, C87: label names and the arrangement of pixels in segmentation -/

namespace Verif.Segmentation

open Verif.Shared

/-- The masks of the second image show those of the first, pixel `x` being taken from pixel `π x`, under the names that `ρ` gives. -/
def Drawn (ρ : String → String) (π : Nat → Nat) (size : Nat) (items items' : List Item) : Prop :=
  List.Forall₂ (fun a b => b.label = ρ a.label ∧ ∀ x < size, bit b.mask x = bit a.mask (π x)) items items'

/-- The second image shows the first one, with other names for the labels and its pixels arranged in another way, every pixel `n` times.
For instance: turned or mirrored images (`n = 1`), images enlarged by repeating pixels. -/
def Redrawn (ρ : String → String) (n : Nat) (s s' : Seg) : Prop :=
  ∃ π : Nat → Nat, (∀ x < s'.size, π x < s.size) ∧ (∀ y < s.size, (List.range s'.size).countP (fun x => decide (π x = y)) = n) ∧
    Drawn ρ π s'.size s.gts s'.gts ∧ Drawn ρ π s'.size s.pds s'.pds

/-- The images of the second evaluator, in some order, show those of the first. -/
def AllRedrawn (ρ : String → String) (n : Nat) (e e' : Built) : Prop :=
  ∃ l, e'.calls.flatten.Perm l ∧ List.Forall₂ (Redrawn ρ n) e.calls.flatten l

theorem Drawn.item {ρ : String → String} {π : Nat → Nat} {size : Nat} {items items' : List Item} (h : Drawn ρ π size items items') {x : Nat}
    (hx : x < size) : itemAt items' x = (itemAt items (π x)).map ρ := by
  unfold Drawn at h
  unfold itemAt
  induction h with
  | nil => rfl
  | cons hab _ ih =>
    rw [List.find?_cons, List.find?_cons, hab.2 x hx]
    split
    · rw [Option.map_some, hab.1]; rfl
    · exact ih

theorem Drawn.labels {ρ : String → String} {π : Nat → Nat} {size : Nat} {items items' : List Item} (h : Drawn ρ π size items items') :
    items'.map Item.label = (items.map Item.label).map ρ := by
  unfold Drawn at h
  induction h with
  | nil => rfl
  | cons hab _ ih => rw [List.map_cons, List.map_cons, List.map_cons, ih, hab.1]

theorem sum_single {m k : Nat} (hk : k < m) (c : Nat → Nat) : ((List.range m).map (fun y => if y = k then c y else 0)).sum = c k := by
  induction m with
  | zero => omega
  | succ m ih =>
    rw [List.range_succ, List.map_append, List.sum_append]
    by_cases h : k = m
    · subst h
      have : (List.range k).map (fun y => if y = k then c y else 0) = (List.range k).map (fun _ => 0) := by
        apply List.map_congr_left
        intro y hy
        rw [List.mem_range] at hy
        rw [if_neg (by omega)]
      rw [this]
      simp
    · rw [ih (by omega)]
      simp [Ne.symm h]

theorem countP_source (π : Nat → Nat) (Q : Nat → Bool) (m : Nat) (xs : List Nat) (h : ∀ x ∈ xs, π x < m) :
    xs.countP (fun x => Q (π x)) = ((List.range m).map (fun y => if Q y then xs.countP (fun x => decide (π x = y)) else 0)).sum := by
  induction xs with
  | nil => simp
  | cons x xs ih =>
    rw [List.countP_cons, ih (fun z hz => h z (by simp [hz]))]
    have hk : π x < m := h x (by simp)
    have e : ∀ y, (if Q y then (x :: xs).countP (fun x => decide (π x = y)) else 0)
        = (if Q y then xs.countP (fun x => decide (π x = y)) else 0) + if y = π x then (if Q y then 1 else 0) else 0 := by
      intro y
      rw [List.countP_cons]
      by_cases hy : π x = y
      · subst hy
        by_cases hQ : Q (π x) <;> simp [hQ]
      · have hy' : ¬ y = π x := fun h => hy h.symm
        by_cases hQ : Q y <;> simp [hQ, hy, hy']
    simp only [e]
    have hadd : ∀ (l : List Nat) (f g : Nat → Nat), (l.map (fun y => f y + g y)).sum = (l.map f).sum + (l.map g).sum := by
      intro l f g
      induction l with
      | nil => rfl
      | cons a l ih => rw [List.map_cons, List.sum_cons, ih, List.map_cons, List.map_cons, List.sum_cons, List.sum_cons]; omega
    rw [hadd, sum_single hk (fun y => if Q y then 1 else 0)]

theorem countP_redrawn {π : Nat → Nat} {Q : Nat → Bool} {m m' n : Nat} (h1 : ∀ x < m', π x < m)
    (h2 : ∀ y < m, (List.range m').countP (fun x => decide (π x = y)) = n) :
    (List.range m').countP (fun x => Q (π x)) = n * (List.range m).countP Q := by
  rw [countP_source π Q m _ (fun x hx => h1 x (List.mem_range.1 hx))]
  have : (List.range m).map (fun y => if Q y then (List.range m').countP (fun x => decide (π x = y)) else 0)
      = (List.range m).map (fun y => if Q y then n else 0) := by
    apply List.map_congr_left
    intro y hy
    rw [h2 y (List.mem_range.1 hy)]
  rw [this]
  clear this h1 h2
  induction List.range m with
  | nil => simp
  | cons a l ih =>
    rw [List.map_cons, List.sum_cons, ih, List.countP_cons]
    by_cases hQ : Q a <;> simp [hQ, Nat.mul_add, Nat.add_comm]

theorem Redrawn.count {ρ : String → String} {n : Nat} {s s' : Seg} (h : Redrawn ρ n s s') (P : Option String → Option String → Bool) :
    (List.range s'.size).countP (fun x => P (itemAt s'.gts x) (itemAt s'.pds x))
      = n * (List.range s.size).countP (fun y => P ((itemAt s.gts y).map ρ) ((itemAt s.pds y).map ρ)) := by
  obtain ⟨π, h1, h2, h3, h4⟩ := h
  rw [← countP_redrawn (Q := fun y => P ((itemAt s.gts y).map ρ) ((itemAt s.pds y).map ρ)) h1 h2]
  apply List.countP_congr
  intro x hx
  rw [h3.item (List.mem_range.1 hx), h4.item (List.mem_range.1 hx)]

theorem AllRedrawn.total {ρ : String → String} {n : Nat} {e e' : Built} (h : AllRedrawn ρ n e e') {f f' : Seg → Nat}
    (hf : ∀ s s', Redrawn ρ n s s' → f' s' = n * f s) : total e'.calls f' = n * total e.calls f := by
  obtain ⟨l, hp, hl⟩ := h
  unfold Verif.Segmentation.total
  rw [(hp.map f').sum_eq]
  clear hp
  generalize e.calls.flatten = k at hl
  induction hl with
  | nil => simp
  | cons hab _ ih => rw [List.map_cons, List.sum_cons, List.map_cons, List.sum_cons, ih, hf _ _ hab, Nat.mul_add]

theorem AllRedrawn.labels {ρ : String → String} (hρ : ∀ x y, ρ x = ρ y → x = y) {n : Nat} {e e' : Built} (h : AllRedrawn ρ n e e') :
    e'.labels.Perm (e.labels.map ρ) := by
  refine (List.perm_ext_iff_of_nodup (C38_labels e'.calls).1 ((C38_labels e.calls).1.map (fun x y hxy => hρ x y hxy))).2 ?_
  obtain ⟨l, hp, hl⟩ := h
  have hs : ∀ {s s' : Seg}, Redrawn ρ n s s' → (s'.gts ++ s'.pds).map Item.label = ((s.gts ++ s.pds).map Item.label).map ρ := by
    rintro s s' ⟨π, -, -, h3, h4⟩
    rw [List.map_append, List.map_append, h3.labels, h4.labels, List.map_append]
  have h1 : ∀ s' ∈ l, ∃ s ∈ e.calls.flatten, Redrawn ρ n s s' := by
    intro s' hs'
    obtain ⟨i, hi, rfl⟩ := List.getElem_of_mem hs'
    have := List.forall₂_iff_get.1 hl
    exact ⟨_, List.getElem_mem (by rw [this.1]; exact hi), this.2 i (by rw [this.1]; exact hi) hi⟩
  have h2 : ∀ s ∈ e.calls.flatten, ∃ s' ∈ l, Redrawn ρ n s s' := by
    intro s hsm
    obtain ⟨i, hi, rfl⟩ := List.getElem_of_mem hsm
    have := List.forall₂_iff_get.1 hl
    exact ⟨_, List.getElem_mem (by rw [← this.1]; exact hi), this.2 i hi (by rw [← this.1]; exact hi)⟩
  intro v
  rw [(C38_labels e'.calls).2, List.mem_map]
  simp only [(C38_labels e.calls).2]
  constructor
  · rintro ⟨s', hs', it, hit, rfl⟩
    obtain ⟨s, hsm, hr⟩ := h1 s' (hp.mem_iff.1 hs')
    have hm := List.mem_map_of_mem (f := Item.label) hit
    rw [hs hr] at hm
    obtain ⟨w, hw, he⟩ := List.mem_map.1 hm
    obtain ⟨it0, hit0, rfl⟩ := List.mem_map.1 hw
    exact ⟨_, ⟨s, hsm, it0, hit0, rfl⟩, he⟩
  · rintro ⟨w, ⟨s, hsm, it, hit, rfl⟩, rfl⟩
    obtain ⟨s', hs', hr⟩ := h2 s hsm
    have hm := List.mem_map_of_mem (f := ρ) (List.mem_map_of_mem (f := Item.label) hit)
    rw [← hs hr] at hm
    obtain ⟨it', hit', he⟩ := List.mem_map.1 hm
    exact ⟨s', hp.mem_iff.2 hs', it', hit', he⟩

/-- The metric for the label with the other name. -/
def Metric.renamed (ρ : String → String) (m : Metric) : Metric := { m with label := m.label.map ρ }

theorem report_redrawn {ρ : String → String} (hρ : ∀ x y, ρ x = ρ y → x = y) {n : Nat} (hn : 0 < n) {e e' : Built}
    (h : AllRedrawn ρ n e e') (hok : ∀ s ∈ e.calls.flatten, SegOk s) (hok' : ∀ s ∈ e'.calls.flatten, SegOk s)
    (hs : (e'.calls.flatten.map Seg.size).sum < 2 ^ 64) (hne : e.labels ≠ []) :
    ∃ R R', e.report = .ok R ∧ e'.report = .ok R' ∧
      R'.accuracy = R.accuracy ∧ R'.meanIou = R.meanIou ∧ R'.precision.Perm (R.precision.map (Metric.renamed ρ)) ∧
      R'.recall.Perm (R.recall.map (Metric.renamed ρ)) ∧ R'.f1.Perm (R.f1.map (Metric.renamed ρ)) ∧ R'.iou.Perm (R.iou.map (Metric.renamed ρ)) ∧
      ∃ m a b m' a' b', R.confusionMatrix = [⟨"ConfusionMatrix", .matrix m a b, none⟩] ∧
        R'.confusionMatrix = [⟨"ConfusionMatrix", .matrix m' a' b', none⟩] ∧
        (∀ g p, cellOf m' (ρ g) (ρ p) = cellOf m g p) ∧ (∀ v, a'.lookup (ρ v) = a.lookup v) ∧ ∀ v, b'.lookup (ρ v) = b.lookup v := by
  have hl := h.labels hρ
  have hr : ∀ v w, ρ w = ρ v ↔ w = v := fun v w => ⟨hρ w v, fun h => by rw [h]⟩
  have hm : ∀ v (o : Option String), o.map ρ = some (ρ v) ↔ o = some v := by
    intro v o
    cases o <;> simp [hr]
  have hpix : ∀ a b : Option String, total e'.calls (fun s => pixelsOf s (a.map ρ) (b.map ρ)) = n * total e.calls (fun s => pixelsOf s a b) := by
    intro a b
    apply h.total
    intro s s' hss
    unfold pixelsOf
    rw [hss.count (fun u v => decide (u = a.map ρ ∧ v = b.map ρ))]
    congr 1
    apply List.countP_congr
    intro x _
    have key : ∀ o c : Option String, o.map ρ = c.map ρ ↔ o = c := by
      intro o c
      cases o <;> cases c <;> simp [hr]
    simp only [key]
  have hgt : ∀ v, total e'.calls (fun s => gtPixelsOf s (some (ρ v))) = n * total e.calls (fun s => gtPixelsOf s (some v)) := by
    intro v
    apply h.total
    intro s s' hss
    unfold gtPixelsOf
    rw [hss.count (fun u _ => decide (u = some (ρ v)))]
    simp only [hm]
  have hpd : ∀ v, total e'.calls (fun s => pdPixelsOf s (some (ρ v))) = n * total e.calls (fun s => pdPixelsOf s (some v)) := by
    intro v
    apply h.total
    intro s s' hss
    unfold pdPixelsOf
    rw [hss.count (fun _ u => decide (u = some (ρ v)))]
    simp only [hm]
  have hsize : total e'.calls Seg.size = n * total e.calls Seg.size := by
    apply h.total
    intro s s' hss
    simpa using hss.count (fun _ _ => true)
  have hacc : total e'.calls (fun s => (List.range s.size).countP (fun x => decide (itemAt s.gts x = itemAt s.pds x)))
      = n * total e.calls (fun s => (List.range s.size).countP (fun x => decide (itemAt s.gts x = itemAt s.pds x))) := by
    apply h.total
    intro s s' hss
    rw [hss.count (fun u v => decide (u = v))]
    congr 1
    apply List.countP_congr
    intro x _
    have key : ∀ o c : Option String, o.map ρ = c.map ρ ↔ o = c := by
      intro o c
      cases o <;> cases c <;> simp [hr]
    simp only [key]
  have hs' : (e.calls.flatten.map Seg.size).sum < 2 ^ 64 := by
    unfold total at hsize
    rw [hsize] at hs
    exact lt_of_le_of_lt (Nat.le_mul_of_pos_left _ hn) hs
  have hne' : e'.labels ≠ [] := by
    intro e0
    rw [e0] at hl
    have := hl.nil_eq
    exact hne (List.map_eq_nil_iff.1 this.symm)
  have hboth : ∀ g p, total e'.calls (fun s => pixelsOf s (some (ρ g)) (some (ρ p))) = n * total e.calls (fun s => pixelsOf s (some g) (some p)) :=
    fun g p => hpix (some g) (some p)
  have hbg : ∀ p, total e'.calls (fun s => pixelsOf s none (some (ρ p))) = n * total e.calls (fun s => pixelsOf s none (some p)) :=
    fun p => hpix none (some p)
  have hgb : ∀ g, total e'.calls (fun s => pixelsOf s (some (ρ g)) none) = n * total e.calls (fun s => pixelsOf s (some g) none) :=
    fun g => hpix (some g) none
  obtain ⟨n1, R, e1, a1, c1, m1, p1, r1, f1, i1⟩ := C65_report e.calls hok hs' e.stored hne
  obtain ⟨n2, R', e2, a2, c2, m2, p2, r2, f2, i2⟩ := C65_report e'.calls hok' hs e'.stored hne'
  have hnames := n2.trans (hl.trans (n1.symm.map ρ))
  have hlist : ∀ (F F' : String → Metric), (∀ v, F' (ρ v) = (F v).renamed ρ) →
      ((extractLabels (e'.tables.map (fun t => t.map labelCols))).map (fun x => F' x.2)).Perm
      (((extractLabels (e.tables.map (fun t => t.map labelCols))).map (fun x => F x.2)).map (Metric.renamed ρ)) := by
    intro F F' hF
    have := hnames.map F'
    rw [List.map_map, List.map_map, List.map_map] at this
    rw [List.map_map]
    refine this.trans ?_
    rw [List.map_congr_left (g := Metric.renamed ρ ∘ fun x => F x.2) (fun x _ => hF x.2)]
  unfold Built.labels at hl
  refine ⟨R, R', e1, e2, ?_, ?_, ?_, ?_, ?_, ?_, _, _, _, _, _, _, c1, c2, ?_, ?_, ?_⟩
  · rw [a1, a2, hacc, hsize, ratio_times hn]
  · rw [m1, m2, (hl.map _).sum_eq, hl.length_eq, List.length_map, List.map_map]
    simp only [Function.comp_def, hboth, hgt, hpd, ← Nat.mul_add, ← Nat.mul_sub, ratio_times hn]
  · rw [p1, p2]
    apply hlist (fun v => ⟨"Precision", .number (some (ratio (total e.calls (fun s => pixelsOf s (some v) (some v))) (total e.calls (fun s => pdPixelsOf s (some v))))), some v⟩)
      (fun v => ⟨"Precision", .number (some (ratio (total e'.calls (fun s => pixelsOf s (some v) (some v))) (total e'.calls (fun s => pdPixelsOf s (some v))))), some v⟩)
    intro v
    rw [hboth, hpd, ratio_times hn]; rfl
  · rw [r1, r2]
    apply hlist (fun v => ⟨"Recall", .number (some (ratio (total e.calls (fun s => pixelsOf s (some v) (some v))) (total e.calls (fun s => gtPixelsOf s (some v))))), some v⟩)
      (fun v => ⟨"Recall", .number (some (ratio (total e'.calls (fun s => pixelsOf s (some v) (some v))) (total e'.calls (fun s => gtPixelsOf s (some v))))), some v⟩)
    intro v
    rw [hboth, hgt, ratio_times hn]; rfl
  · rw [f1, f2]
    apply hlist (fun v => ⟨"F1", .number (some (ratio (2 * (total e.calls (fun s => pixelsOf s (some v) (some v)))) ((total e.calls (fun s => gtPixelsOf s (some v))) + (total e.calls (fun s => pdPixelsOf s (some v)))))), some v⟩)
      (fun v => ⟨"F1", .number (some (ratio (2 * (total e'.calls (fun s => pixelsOf s (some v) (some v)))) ((total e'.calls (fun s => gtPixelsOf s (some v))) + (total e'.calls (fun s => pdPixelsOf s (some v)))))), some v⟩)
    intro v
    rw [hboth, hgt, hpd, ← Nat.mul_add, Nat.mul_left_comm, ratio_times hn]; rfl
  · rw [i1, i2]
    apply hlist (fun v => ⟨"IOU", .number (some (ratio (total e.calls (fun s => pixelsOf s (some v) (some v))) ((total e.calls (fun s => gtPixelsOf s (some v))) + (total e.calls (fun s => pdPixelsOf s (some v))) - (total e.calls (fun s => pixelsOf s (some v) (some v)))))), some v⟩)
      (fun v => ⟨"IOU", .number (some (ratio (total e'.calls (fun s => pixelsOf s (some v) (some v))) ((total e'.calls (fun s => gtPixelsOf s (some v))) + (total e'.calls (fun s => pdPixelsOf s (some v))) - (total e'.calls (fun s => pixelsOf s (some v) (some v)))))), some v⟩)
    intro v
    rw [hboth, hgt, hpd, ← Nat.mul_add, ← Nat.mul_sub, ratio_times hn]; rfl
  all_goals
    have hmem : ∀ v, ρ v ∈ (Loader.init.addAll e'.calls).labels ↔ v ∈ (Loader.init.addAll e.calls).labels := by
      intro v
      rw [hl.mem_iff, List.mem_map]
      exact ⟨fun ⟨w, hw, he⟩ => hρ _ _ he ▸ hw, fun hv => ⟨v, hv, rfl⟩⟩
  · intro g p
    rw [cellOf_names, cellOf_names]
    dsimp only
    rw [hboth, hgt, hpd, ← Nat.mul_add, ← Nat.mul_sub, ratio_times hn]
    simp only [hmem]
  · intro v
    dsimp only
    rw [lookup_names _ (fun p => ratio (total e'.calls (fun s => pixelsOf s none (some p))) (total e'.calls (fun s => pdPixelsOf s (some p)))),
      lookup_names _ (fun p => ratio (total e.calls (fun s => pixelsOf s none (some p))) (total e.calls (fun s => pdPixelsOf s (some p)))),
      hbg, hpd, ratio_times hn]
    simp only [hmem]
  · intro v
    rw [lookup_names _ (fun g => ratio (total e'.calls (fun s => pixelsOf s (some g) none)) (total e'.calls (fun s => gtPixelsOf s (some g)))),
      lookup_names _ (fun g => ratio (total e.calls (fun s => pixelsOf s (some g) none)) (total e.calls (fun s => gtPixelsOf s (some g)))),
      hgb, hgt, ratio_times hn]
    simp only [hmem]

/-- The image with other names for its labels. -/
def Seg.renamed (ρ : String → String) (s : Seg) : Seg :=
  { s with gts := s.gts.map (fun i => { i with label := ρ i.label }), pds := s.pds.map (fun i => { i with label := ρ i.label }) }

theorem countP_self {m y : Nat} (h : y < m) : (List.range m).countP (fun x => decide (x = y)) = 1 := by
  have e : (fun x : Nat => decide (x = y)) = (fun x => x == y) := by funext x; rw [Bool.beq_eq_decide_eq]
  rw [e, ← List.count_eq_countP, List.count_eq_one_of_mem List.nodup_range (List.mem_range.2 h)]

theorem redrawn_renamed (ρ : String → String) (s : Seg) : Redrawn ρ 1 s (s.renamed ρ) := by
  refine ⟨id, fun x hx => hx, fun y hy => countP_self hy, ?_, ?_⟩
  all_goals
    unfold Drawn
    refine List.forall₂_map_right_iff.2 (List.forall₂_same.2 (fun x _ => ⟨rfl, fun _ _ => rfl⟩))

theorem segOk_renamed {ρ : String → String} (hρ : ∀ x y, ρ x = ρ y → x = y) {s : Seg} (h : SegOk s) : SegOk (s.renamed ρ) := by
  have key : ∀ {size : Nat} {items : List Item}, ItemsOk size items → ItemsOk size (items.map (fun i => { i with label := ρ i.label })) := by
    intro size items h
    refine ⟨?_, ?_, ?_⟩
    · intro x hx
      obtain ⟨i, hi, rfl⟩ := List.mem_map.1 hx
      exact h.lens i hi
    · rw [List.map_map]; exact h.disjoint
    · have : (items.map (fun i : Item => { i with label := ρ i.label })).map Item.label = (items.map Item.label).map ρ := by
        rw [List.map_map, List.map_map]; rfl
      rw [this]
      exact h.labels.map (fun x y hxy => hρ x y hxy)
  exact ⟨key h.gts, key h.pds⟩

/-- **C85** (segmentation): the names of the labels carry no meaning. When every label gets another name, different labels different
names, the two evaluators report the same accuracy and mean IOU, and for every label the same precision, recall, F1 and IOU and the same
entries of the confusion matrix, under the new names. -/
theorem C85_segmentation {ρ : String → String} (hρ : ∀ x y, ρ x = ρ y → x = y) {e e' : Built}
    (h : e'.calls.flatten.Perm (e.calls.flatten.map (Seg.renamed ρ))) (hok : ∀ s ∈ e.calls.flatten, SegOk s)
    (hs : (e.calls.flatten.map Seg.size).sum < 2 ^ 64) (hne : e.labels ≠ []) :
    ∃ R R', e.report = .ok R ∧ e'.report = .ok R' ∧
      R'.accuracy = R.accuracy ∧ R'.meanIou = R.meanIou ∧ R'.precision.Perm (R.precision.map (Metric.renamed ρ)) ∧
      R'.recall.Perm (R.recall.map (Metric.renamed ρ)) ∧ R'.f1.Perm (R.f1.map (Metric.renamed ρ)) ∧ R'.iou.Perm (R.iou.map (Metric.renamed ρ)) ∧
      ∃ m a b m' a' b', R.confusionMatrix = [⟨"ConfusionMatrix", .matrix m a b, none⟩] ∧
        R'.confusionMatrix = [⟨"ConfusionMatrix", .matrix m' a' b', none⟩] ∧
        (∀ g p, cellOf m' (ρ g) (ρ p) = cellOf m g p) ∧ (∀ v, a'.lookup (ρ v) = a.lookup v) ∧ ∀ v, b'.lookup (ρ v) = b.lookup v := by
  refine report_redrawn hρ (n := 1) (by decide) ⟨_, h, List.forall₂_map_right_iff.2 (List.forall₂_same.2 (fun s _ => redrawn_renamed ρ s))⟩
    hok ?_ ?_ hne
  · intro s hsm
    obtain ⟨s0, hs0, rfl⟩ := List.mem_map.1 (h.mem_iff.1 hsm)
    exact segOk_renamed hρ (hok s0 hs0)
  · rw [(h.map Seg.size).sum_eq, List.map_map]
    exact hs

theorem Metric.renamed_id (m : Metric) : m.renamed id = m := by
  unfold Metric.renamed
  rw [Option.map_id]; rfl

/-- **C87** (segmentation): only the numbers of pixels count. When the pixels of the images are arranged in another way (images turned,
mirrored, or their pixels shuffled), or when all images are enlarged by showing every pixel the same number of times, all reported
numbers stay the same. -/
theorem C87_segmentation {n : Nat} (hn : 0 < n) {e e' : Built} (h : AllRedrawn id n e e')
    (hok : ∀ s ∈ e.calls.flatten, SegOk s) (hok' : ∀ s ∈ e'.calls.flatten, SegOk s)
    (hs : (e'.calls.flatten.map Seg.size).sum < 2 ^ 64) (hne : e.labels ≠ []) :
    ∃ R R', e.report = .ok R ∧ e'.report = .ok R' ∧
      R'.accuracy = R.accuracy ∧ R'.meanIou = R.meanIou ∧ R'.precision.Perm R.precision ∧
      R'.recall.Perm R.recall ∧ R'.f1.Perm R.f1 ∧ R'.iou.Perm R.iou ∧
      ∃ m a b m' a' b', R.confusionMatrix = [⟨"ConfusionMatrix", .matrix m a b, none⟩] ∧
        R'.confusionMatrix = [⟨"ConfusionMatrix", .matrix m' a' b', none⟩] ∧
        (∀ g p, cellOf m' g p = cellOf m g p) ∧ (∀ v, a'.lookup v = a.lookup v) ∧ ∀ v, b'.lookup v = b.lookup v := by
  have hid : Metric.renamed id = id := funext Metric.renamed_id
  have := report_redrawn (ρ := id) (fun _ _ h => h) hn h hok hok' hs hne
  simp only [hid, List.map_id] at this
  exact this

/-- The image enlarged `n` times along the last axis: each pixel is followed by its copies. -/
def Seg.enlarged (n : Nat) (s : Seg) : Seg :=
  { s with size := s.size * n
           gts := s.gts.map (fun i => { i with mask := i.mask.flatMap (List.replicate n) })
           pds := s.pds.map (fun i => { i with mask := i.mask.flatMap (List.replicate n) }) }

/-- The image with its pixels in the opposite order (turned by 180 degrees). -/
def Seg.turned (s : Seg) : Seg :=
  { s with gts := s.gts.map (fun i => { i with mask := i.mask.reverse }), pds := s.pds.map (fun i => { i with mask := i.mask.reverse }) }

theorem countP_turned {m y : Nat} (h : y < m) : (List.range m).countP (fun x => decide (m - 1 - x = y)) = 1 := by
  refine (List.countP_congr ?_).trans (countP_self (show m - 1 - y < m by omega))
  intro x hx
  rw [List.mem_range] at hx
  simp only [decide_eq_true_eq]
  omega

theorem redrawn_turned {s : Seg} (h : SegOk s) : Redrawn id 1 s s.turned := by
  refine ⟨fun x => s.size - 1 - x, fun x hx => ?_, fun y hy => countP_turned hy, ?_, ?_⟩
  · have : x < s.size := hx
    show s.size - 1 - x < s.size
    omega
  · refine List.forall₂_map_right_iff.2 (List.forall₂_same.2 (fun i hi => ⟨rfl, fun x hx => ?_⟩))
    have hl := h.gts.lens i hi
    have hx' : x < s.size := hx
    unfold bit
    rw [List.getD_eq_getElem?_getD, List.getD_eq_getElem?_getD, List.getElem?_reverse (by omega), hl]
  · refine List.forall₂_map_right_iff.2 (List.forall₂_same.2 (fun i hi => ⟨rfl, fun x hx => ?_⟩))
    have hl := h.pds.lens i hi
    have hx' : x < s.size := hx
    unfold bit
    rw [List.getD_eq_getElem?_getD, List.getD_eq_getElem?_getD, List.getElem?_reverse (by omega), hl]

theorem countP_enlarged {m n y : Nat} (hn : 0 < n) (h : y < m) : (List.range (m * n)).countP (fun x => decide (x / n = y)) = n := by
  induction m with
  | zero => omega
  | succ m ih =>
    rw [Nat.succ_mul, List.range_add, List.countP_append, List.countP_map]
    have e : ∀ k < n, (m * n + k) / n = m := fun k hk => by
      rw [Nat.mul_comm, Nat.mul_add_div hn, Nat.div_eq_of_lt hk, Nat.add_zero]
    by_cases hy : y = m
    · subst hy
      have h1 : (List.range (y * n)).countP (fun x => decide (x / n = y)) = 0 := by
        rw [List.countP_eq_zero]
        intro x hx
        rw [List.mem_range] at hx
        have := Nat.div_lt_of_lt_mul (Nat.mul_comm y n ▸ hx)
        simp only [decide_eq_true_eq]
        omega
      have h2 : (List.range n).countP ((fun x => decide (x / n = y)) ∘ (y * n + ·)) = (List.range n).length := by
        rw [List.countP_eq_length]
        intro k hk
        simp [e k (List.mem_range.1 hk)]
      rw [h1, h2, List.length_range, Nat.zero_add]
    · rw [ih (by omega), Nat.add_eq_left, List.countP_eq_zero]
      intro k hk
      simp only [Function.comp, e k (List.mem_range.1 hk), decide_eq_true_eq]
      omega

theorem getElem?_enlarged {n : Nat} (hn : 0 < n) (m : Mask) (x : Nat) : (m.flatMap (List.replicate n))[x]? = m[x / n]? := by
  induction m generalizing x with
  | nil => simp
  | cons b m ih =>
    rw [List.flatMap_cons, List.getElem?_append, List.length_replicate]
    split
    · rename_i h
      rw [List.getElem?_replicate, if_pos h, Nat.div_eq_of_lt h]; rfl
    · rename_i h
      rw [ih]
      have : x / n = (x - n) / n + 1 := by rw [Nat.div_eq_sub_div hn (by omega)]
      rw [this, List.getElem?_cons_succ]

theorem redrawn_enlarged {n : Nat} (hn : 0 < n) (s : Seg) : Redrawn id n s (s.enlarged n) := by
  refine ⟨fun x => x / n, fun x hx => ?_, fun y hy => countP_enlarged hn hy, ?_, ?_⟩
  · exact Nat.div_lt_of_lt_mul (Nat.mul_comm s.size n ▸ hx)
  all_goals
    refine List.forall₂_map_right_iff.2 (List.forall₂_same.2 (fun i hi => ⟨rfl, fun x hx => ?_⟩))
    unfold bit
    rw [List.getD_eq_getElem?_getD, List.getD_eq_getElem?_getD, getElem?_enlarged hn]

/-- One image with a partly correct prediction. -/
def smallCalls : List (List Seg) := [[⟨"a", 3, [⟨[true, true, false], "x", none⟩], [⟨[false, true, true], "x", none⟩], none⟩]]

/-- An image with its pixels in the opposite order and a tripled one meet the hypotheses. -/
example : ∃ a b c d : Built, AllRedrawn id 1 a b ∧ AllRedrawn id 3 a c ∧ b.calls ≠ a.calls ∧ (∀ s ∈ a.calls.flatten, SegOk s) ∧
    d.calls.flatten.Perm (a.calls.flatten.map (Seg.renamed ("n" ++ ·))) ∧
    (∀ s ∈ b.calls.flatten, SegOk s) ∧ (∀ s ∈ c.calls.flatten, SegOk s) ∧ (c.calls.flatten.map Seg.size).sum < 2 ^ 64 ∧ a.labels ≠ [] := by
  obtain ⟨a, ha⟩ := built_exists smallCalls
  obtain ⟨b, hb⟩ := built_exists (smallCalls.map (List.map Seg.turned))
  obtain ⟨c, hc⟩ := built_exists (smallCalls.map (List.map (Seg.enlarged 3)))
  obtain ⟨d, hd⟩ := built_exists (smallCalls.map (List.map (Seg.renamed ("n" ++ ·))))
  have hok : ∀ s ∈ smallCalls.flatten, SegOk s := by
    intro s hs
    simp only [smallCalls, List.flatten_cons, List.flatten_nil, List.append_nil, List.mem_singleton] at hs
    subst hs
    exact ⟨⟨by simp, by simp [Disjoint], by decide⟩, ⟨by simp, by simp [Disjoint], by decide⟩⟩
  refine ⟨a, b, c, d, ⟨_, by rw [hb, ← List.map_flatten], ?_⟩, ⟨_, by rw [hc, ← List.map_flatten], ?_⟩, ?_, by rw [ha]; exact hok,
    by rw [hd, ha, ← List.map_flatten], ?_, ?_, ?_, ?_⟩
  · rw [ha]
    exact List.forall₂_map_right_iff.2 (List.forall₂_same.2 (fun s hs => redrawn_turned (hok s hs)))
  · rw [ha]
    exact List.forall₂_map_right_iff.2 (List.forall₂_same.2 (fun s hs => redrawn_enlarged (by decide) s))
  · rw [ha, hb]; decide +kernel
  · rw [hb]
    intro s hs
    simp only [smallCalls, List.map_cons, List.map_nil, List.flatten_cons, List.flatten_nil, List.append_nil, List.mem_singleton] at hs
    subst hs
    exact ⟨⟨by simp [Seg.turned], by simp [Seg.turned, Disjoint], by decide⟩, ⟨by simp [Seg.turned], by simp [Seg.turned, Disjoint], by decide⟩⟩
  · rw [hc]
    intro s hs
    simp only [smallCalls, List.map_cons, List.map_nil, List.flatten_cons, List.flatten_nil, List.append_nil, List.mem_singleton] at hs
    subst hs
    exact ⟨⟨by simp [Seg.enlarged], by simp [Seg.enlarged, Disjoint], by decide⟩, ⟨by simp [Seg.enlarged], by simp [Seg.enlarged, Disjoint], by decide⟩⟩
  · rw [hc]; decide +kernel
  · unfold Built.labels; rw [ha]; decide +kernel

end Verif.Segmentation
