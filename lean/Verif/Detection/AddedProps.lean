import Verif.Detection.LabelProps

/-!
# C90, C91: added predictions, and the order of the annotations of a detection
-/

namespace Verif.Detection

/-! ## More predictions -/

/-- Every prediction of the first detection is in the second, with the same IoUs; the ground truths are the same. The second may have more
predictions, anywhere. -/
structure Extends (x x' : Det × (Nat → Nat → Rat)) : Prop where
  gts : x'.1.gts = x.1.gts
  pds : ∀ p a, x.1.pds[p]? = some a → ∃ p', x'.1.pds[p']? = some a ∧ ∀ g, x'.2 p' g = x.2 p g

theorem Extends.refl (x : Det × (Nat → Nat → Rat)) : Extends x x := ⟨rfl, fun p _ h => ⟨p, h, fun _ => rfl⟩⟩

theorem nearest_moved {x x' : Det × (Nat → Nat → Rat)} (hg : x'.1.gts = x.1.gts) {p p' : Nat} (hi : ∀ g, x'.2 p' g = x.2 p g) {v : String} {g : Nat} :
    Nearest x' v p' g ↔ Nearest x v p g := by
  unfold Nearest
  rw [hg]
  simp only [hi]

theorem touches_moved {x x' : Det × (Nat → Nat → Rat)} (hg : x'.1.gts = x.1.gts) {p p' : Nat} (hi : ∀ g, x'.2 p' g = x.2 p g) {v : String} :
    Touches x' v p' ↔ Touches x v p := by
  unfold Touches
  rw [hg]
  simp only [hi]

theorem Extends.hit {x x' : Det × (Nat → Nat → Rat)} (h : Extends x x') {t s : Rat} {v : String} {g : Nat} (hh : Hit x t s v g) : Hit x' t s v g := by
  obtain ⟨p, ⟨a, ha, hp⟩, hn, ht⟩ := hh
  obtain ⟨p', ha', hi⟩ := h.pds p a ha
  exact ⟨p', ⟨a, ha', hp⟩, (nearest_moved h.gts hi).2 hn, by rw [hi]; exact ht⟩

theorem hitCount_le {x x' : Det × (Nat → Nat → Rat)} (hg : x'.1.gts = x.1.gts) {t s : Rat} {v : String} (h : ∀ g, Hit x t s v g → Hit x' t s v g) :
    hitCount x t s v ≤ hitCount x' t s v := by
  classical
  unfold hitCount
  rw [hg]
  exact (List.monotone_filter_right _ (fun g hd => by simpa using h g (by simpa using hd))).length_le

theorem sum_forall₂_le {α β : Type} {R : α → β → Prop} {l : List α} {m : List β} {f : α → Nat} {g : β → Nat} (h : List.Forall₂ R l m)
    (hfg : ∀ x y, R x y → f x ≤ g y) : (l.map f).sum ≤ (m.map g).sum := by
  induction h with
  | nil => exact le_refl _
  | @cons a b l m hab _ ih =>
    simp only [List.map_cons, List.sum_cons]
    exact Nat.add_le_add (hfg a b hab) ih

theorem recall_mono {a b n : Nat} (h : a ≤ b) : recall a n ≤ recall b n := by
  unfold recall
  split
  · rename_i hn
    have : (0 : Rat) < n := by exact_mod_cast hn
    exact div_le_div_of_nonneg_right (by exact_mod_cast h) (le_of_lt this)
  · exact le_refl _

/-- **C90 (more predictions).** When predictions are added to a dataset, in any of its detections and at any place, then for every label and
all thresholds the true positives and the recall do not go down, the false negatives do not go up, and the ground truths stay. -/
theorem C90_more (e e' : Built) (hH : HistoryOk e.calls.flatten) (hH' : HistoryOk e'.calls.flatten) (hS : SizesOk (Loader.init.addAll e.calls))
    (hS' : SizesOk (Loader.init.addAll e'.calls)) (hD : DistinctLabels e.calls.flatten) (hD' : DistinctLabels e'.calls.flatten)
    (h : List.Forall₂ Extends e.calls.flatten e'.calls.flatten) (t s : Rat) (v : String) :
    e.gt v = e'.gt v ∧ e.tp t s v ≤ e'.tp t s v ∧ e'.fn t s v ≤ e.fn t s v ∧ recall (e.tp t s v) (e.gt v) ≤ recall (e'.tp t s v) (e'.gt v) := by
  obtain ⟨a1, _, a3, a4, a5⟩ := C54_exact e hH hD hS t s v
  obtain ⟨b1, _, b3, b4, b5⟩ := C54_exact e' hH' hD' hS' t s v
  have hgt : e.gt v = e'.gt v := by
    rw [a1, b1]
    unfold gtNumber
    exact sum_forall₂ h (fun x _ y _ hxy => by rw [hxy.gts])
  have htp : e.tp t s v ≤ e'.tp t s v := by
    by_cases ht : 0 < t
    · rw [a4 ht, b4 ht]
      exact sum_forall₂_le h (fun x y hxy => hitCount_le hxy.gts (fun g => hxy.hit))
    · rw [a5 (not_lt.1 ht)]
      exact Nat.zero_le _
  refine ⟨hgt, htp, by omega, ?_⟩
  rw [← hgt]
  exact recall_mono htp

/-! ## One more prediction -/

/-- The second detection is the first with a prediction added at the end. -/
structure AddsOne (x x' : Det × (Nat → Nat → Rat)) (q : Ann) : Prop where
  gts : x'.1.gts = x.1.gts
  pds : x'.1.pds = x.1.pds ++ [q]
  iou : ∀ p < x.1.pds.length, ∀ g, x'.2 p g = x.2 p g

theorem AddsOne.extends {x x' : Det × (Nat → Nat → Rat)} {q : Ann} (h : AddsOne x x' q) : Extends x x' := by
  refine ⟨h.gts, ?_⟩
  intro p a ha
  have hlt := (List.getElem?_eq_some_iff.1 ha).1
  exact ⟨p, by rw [h.pds, List.getElem?_append_left hlt]; exact ha, h.iou p hlt⟩

theorem AddsOne.getElem? {x x' : Det × (Nat → Nat → Rat)} {q : Ann} (h : AddsOne x x' q) {p : Nat} {a : Ann} (ha : x'.1.pds[p]? = some a) :
    (p < x.1.pds.length ∧ x.1.pds[p]? = some a) ∨ (p = x.1.pds.length ∧ a = q) := by
  rw [h.pds] at ha
  by_cases hlt : p < x.1.pds.length
  · rw [List.getElem?_append_left hlt] at ha
    exact Or.inl ⟨hlt, ha⟩
  · rw [List.getElem?_append_right (not_lt.1 hlt)] at ha
    obtain ⟨hl, rfl⟩ := List.getElem?_eq_some_iff.1 ha
    simp only [List.length_singleton] at hl
    right
    refine ⟨by omega, ?_⟩
    simp

/-- The added prediction finds nothing new: every ground truth it would find is found without it. -/
def FindsNothing (x x' : Det × (Nat → Nat → Rat)) (t s : Rat) (v : String) : Prop := ∀ g, Nearest x' v x.1.pds.length g → t ≤ x'.2 x.1.pds.length g → Hit x t s v g

theorem AddsOne.hitCount {x x' : Det × (Nat → Nat → Rat)} {q : Ann} (h : AddsOne x x' q) {t s : Rat} {v : String}
    (hf : Passing x' s v x.1.pds.length → FindsNothing x x' t s v) : hitCount x' t s v = hitCount x t s v := by
  apply Nat.le_antisymm
  · apply hitCount_le h.gts.symm
    rintro g ⟨p, hp, hn, ht⟩
    obtain ⟨a, ha, hp'⟩ := hp
    rcases h.getElem? ha with ⟨hlt, ha0⟩ | ⟨rfl, rfl⟩
    · have hi := h.iou p hlt
      exact ⟨p, ⟨a, ha0, hp'⟩, (nearest_moved h.gts hi).1 hn, by rw [← hi]; exact ht⟩
    · exact hf ⟨a, ha, hp'⟩ g hn ht
  · exact hitCount_le h.gts (fun g => h.extends.hit)

open Classical in
theorem AddsOne.pdCount {x x' : Det × (Nat → Nat → Rat)} {q : Ann} (h : AddsOne x x' q) (s : Rat) (v : String) :
    pdCount x' s v = pdCount x s v + if Counted x' s v x.1.pds.length then 1 else 0 := by
  unfold Verif.Detection.pdCount
  have hlen : x'.1.pds.length = x.1.pds.length + 1 := by rw [h.pds]; simp
  rw [hlen, List.range_succ, List.filter_append, List.length_append]
  congr 1
  · congr 1
    apply List.filter_congr
    intro p hp
    rw [List.mem_range] at hp
    rw [decide_eq_decide]
    have hget : x'.1.pds[p]? = x.1.pds[p]? := by rw [h.pds, List.getElem?_append_left hp]
    unfold Counted Passing
    rw [hget]
    simp only [touches_moved h.gts (h.iou p hp)]
  · by_cases hc : Counted x' s v x.1.pds.length
    · simp [hc]
    · simp [hc]

/-- A dataset with one prediction added to one of its detections. -/
def Adds (H H' : History) (x x' : Det × (Nat → Nat → Rat)) (q : Ann) : Prop :=
  AddsOne x x' q ∧ ∃ pre post, H = pre ++ x :: post ∧ H' = pre ++ x' :: post

theorem precision_added {tp fp d : Nat} : precision tp (fp + d) ≤ precision tp fp := by
  unfold precision
  by_cases h : tp + fp > 0
  · rw [if_pos h, if_pos (by omega)]
    have h1 : (0 : Rat) < (tp + fp : Nat) := by exact_mod_cast h
    exact div_le_div_of_nonneg_left (Nat.cast_nonneg _) h1 (by exact_mod_cast (by omega : tp + fp ≤ tp + (fp + d)))
  · rw [if_neg h]
    have : tp = 0 := by omega
    subst this
    split <;> simp

open Classical in
/-- **C90 (one more prediction).** One prediction is added to a detection. If it finds no new ground truth of the label at the IoU threshold,
or does not pass the score threshold, then the true positives and false negatives of the label stay, the false positives go up by one when
the prediction is counted for the label and stay otherwise, and the precision does not go up. -/
theorem C90_one_more (e e' : Built) (hH : HistoryOk e.calls.flatten) (hH' : HistoryOk e'.calls.flatten) (hS : SizesOk (Loader.init.addAll e.calls))
    (hS' : SizesOk (Loader.init.addAll e'.calls)) (hD : DistinctLabels e.calls.flatten) (hD' : DistinctLabels e'.calls.flatten)
    {x x' : Det × (Nat → Nat → Rat)} {q : Ann} (h : Adds e.calls.flatten e'.calls.flatten x x' q) (t s : Rat) (v : String)
    (hf : Passing x' s v x.1.pds.length → FindsNothing x x' t s v) :
    e'.tp t s v = e.tp t s v ∧ e'.fn t s v = e.fn t s v ∧ e'.fp t s v = e.fp t s v + (if Counted x' s v x.1.pds.length then 1 else 0) ∧
    precision (e'.tp t s v) (e'.fp t s v) ≤ precision (e.tp t s v) (e.fp t s v) := by
  obtain ⟨a1, a2, a3, a4, a5⟩ := C54_exact e hH hD hS t s v
  obtain ⟨b1, b2, b3, b4, b5⟩ := C54_exact e' hH' hD' hS' t s v
  obtain ⟨h1, pre, post, e1, e2⟩ := h
  have hgt : e'.gt v = e.gt v := by
    rw [a1, b1, e1, e2]
    unfold gtNumber
    simp only [List.map_append, List.map_cons, h1.gts]
  have htp : e'.tp t s v = e.tp t s v := by
    by_cases ht : 0 < t
    · rw [a4 ht, b4 ht, e1, e2]
      simp only [List.map_append, List.map_cons, h1.hitCount hf]
    · rw [a5 (not_lt.1 ht), b5 (not_lt.1 ht)]
  have hpd : e'.tp t s v + e'.fp t s v = e.tp t s v + e.fp t s v + (if Counted x' s v x.1.pds.length then 1 else 0) := by
    rw [a2, b2, e1, e2]
    simp only [List.map_append, List.map_cons, List.sum_append, List.sum_cons, h1.pdCount s v]
    omega
  have hfp : e'.fp t s v = e.fp t s v + (if Counted x' s v x.1.pds.length then 1 else 0) := by omega
  refine ⟨htp, by omega, hfp, ?_⟩
  rw [htp, hfp]
  exact precision_added

open Classical in
/-- **C90 (duplicates).** A prediction is added a second time: the true positives of every label stay at all thresholds, and it is one more
false positive for each label that it is counted for. -/
theorem C90_duplicate (e e' : Built) (hH : HistoryOk e.calls.flatten) (hH' : HistoryOk e'.calls.flatten) (hS : SizesOk (Loader.init.addAll e.calls))
    (hS' : SizesOk (Loader.init.addAll e'.calls)) (hD : DistinctLabels e.calls.flatten) (hD' : DistinctLabels e'.calls.flatten)
    {x x' : Det × (Nat → Nat → Rat)} {q : Ann} (h : Adds e.calls.flatten e'.calls.flatten x x' q) {p : Nat} (hp : x.1.pds[p]? = some q)
    (hi : ∀ g, x'.2 x.1.pds.length g = x.2 p g) (t s : Rat) (v : String) :
    e'.tp t s v = e.tp t s v ∧ e'.fn t s v = e.fn t s v ∧ e'.fp t s v = e.fp t s v + (if Counted x s v p then 1 else 0) := by
  have hlast : x'.1.pds[x.1.pds.length]? = some q := by rw [h.1.pds]; simp
  have hf : Passing x' s v x.1.pds.length → FindsNothing x x' t s v := by
    rintro ⟨a, ha, hp'⟩ g hn ht
    have : a = q := Option.some.inj (ha.symm.trans hlast)
    subst this
    exact ⟨p, ⟨a, hp, hp'⟩, (nearest_moved h.1.gts hi).1 hn, by rw [← hi]; exact ht⟩
  obtain ⟨q1, q2, q3, _⟩ := C90_one_more e e' hH hH' hS hS' hD hD' h t s v hf
  refine ⟨q1, q2, ?_⟩
  have : Counted x' s v x.1.pds.length ↔ Counted x s v p := by
    unfold Counted Passing
    rw [hlast, hp]
    simp only [touches_moved h.1.gts hi]
  rw [q3]
  simp only [this]

/-! ## C91: the order of the annotations -/

/-- The second detection has the annotations of the first in another order. -/
structure Shuffled (x x' : Det × (Nat → Nat → Rat)) (σ σ' τ τ' : Nat → Nat) : Prop where
  gts : ∀ g b, x.1.gts[g]? = some b → x'.1.gts[σ g]? = some b ∧ σ' (σ g) = g
  gts' : ∀ g b, x'.1.gts[g]? = some b → x.1.gts[σ' g]? = some b ∧ σ (σ' g) = g
  pds : ∀ p a, x.1.pds[p]? = some a → x'.1.pds[τ p]? = some a ∧ τ' (τ p) = p
  pds' : ∀ p a, x'.1.pds[p]? = some a → x.1.pds[τ' p]? = some a ∧ τ (τ' p) = p
  iou : ∀ p a g b, x.1.pds[p]? = some a → x.1.gts[g]? = some b → x'.2 (τ p) (σ g) = x.2 p g

theorem Shuffled.symm {x x' : Det × (Nat → Nat → Rat)} {σ σ' τ τ' : Nat → Nat} (h : Shuffled x x' σ σ' τ τ') : Shuffled x' x σ' σ τ' τ := by
  refine ⟨h.gts', h.gts, h.pds', h.pds, ?_⟩
  intro p a g b ha hb
  obtain ⟨ha', ep⟩ := h.pds' p a ha
  obtain ⟨hb', eg⟩ := h.gts' g b hb
  rw [← h.iou _ a _ b ha' hb', ep, eg]

/-- No prediction overlaps two ground truths of one of its labels equally. -/
def NoEqualOverlap (x : Det × (Nat → Nat → Rat)) : Prop :=
  ∀ p a, x.1.pds[p]? = some a → ∀ v ∈ a.labels, ∀ g b g' b', x.1.gts[g]? = some b → b.labels = [v] → x.1.gts[g']? = some b' → b'.labels = [v] →
    EPSILON ≤ x.2 p g → x.2 p g = x.2 p g' → g = g'

/-- The ground truths keep their order. -/
def KeepsOrder (x : Det × (Nat → Nat → Rat)) (σ : Nat → Nat) : Prop := ∀ g < x.1.gts.length, ∀ g' < x.1.gts.length, σ g < σ g' → g < g'

theorem Shuffled.nearest {x x' : Det × (Nat → Nat → Rat)} {σ σ' τ τ' : Nat → Nat} (h : Shuffled x x' σ σ' τ τ') (hn : NoEqualOverlap x ∨ KeepsOrder x σ)
    {p g : Nat} {a : Ann} {v : String} (ha : x.1.pds[p]? = some a) (hv : v ∈ a.labels) (hne : Nearest x v p g) : Nearest x' v (τ p) (σ g) := by
  obtain ⟨⟨b, hb, hlab⟩, heps, hbest⟩ := hne
  refine ⟨⟨b, (h.gts g b hb).1, hlab⟩, by rw [h.iou p a g b ha hb]; exact heps, ?_⟩
  intro g' b' hb' hlab'
  obtain ⟨hb0, eg⟩ := h.gts' g' b' hb'
  obtain ⟨q1, q2⟩ := hbest (σ' g') b' hb0 hlab'
  have hi : x'.2 (τ p) g' = x.2 p (σ' g') := by
    have := h.iou p a (σ' g') b' ha hb0
    rw [eg] at this
    exact this
  rw [hi, h.iou p a g b ha hb]
  refine ⟨q1, ?_⟩
  intro hlt
  rcases hn with hn | hn
  · refine lt_of_le_of_ne q1 ?_
    intro he
    have := hn p a ha v hv g b (σ' g') b' hb hlab hb0 hlab' heps he.symm
    rw [this, eg] at hlt
    exact absurd hlt (lt_irrefl _)
  · exact q2 (hn (σ' g') (List.getElem?_eq_some_iff.1 hb0).1 g (List.getElem?_eq_some_iff.1 hb).1 (by rw [eg]; exact hlt))

theorem Shuffled.passing {x x' : Det × (Nat → Nat → Rat)} {σ σ' τ τ' : Nat → Nat} (h : Shuffled x x' σ σ' τ τ') {s : Rat} {v : String} {p : Nat}
    (hp : Passing x s v p) : Passing x' s v (τ p) := by
  obtain ⟨a, ha, hr⟩ := hp
  exact ⟨a, (h.pds p a ha).1, hr⟩

theorem Shuffled.hit {x x' : Det × (Nat → Nat → Rat)} {σ σ' τ τ' : Nat → Nat} (h : Shuffled x x' σ σ' τ τ') (hn : NoEqualOverlap x ∨ KeepsOrder x σ)
    {t s : Rat} {v : String} {g : Nat} (hh : Hit x t s v g) : Hit x' t s v (σ g) := by
  obtain ⟨p, hp, hne, ht⟩ := hh
  have hp' := h.passing hp
  obtain ⟨a, ha, hv, _⟩ := hp
  have hb := hne.1
  obtain ⟨b, hb, _⟩ := hb
  exact ⟨τ p, hp', h.nearest hn ha hv hne, by rw [h.iou p a g b ha hb]; exact ht⟩

theorem Shuffled.touches {x x' : Det × (Nat → Nat → Rat)} {σ σ' τ τ' : Nat → Nat} (h : Shuffled x x' σ σ' τ τ') {v : String} {p : Nat} {a : Ann}
    (ha : x.1.pds[p]? = some a) : Touches x' v (τ p) ↔ Touches x v p := by
  constructor
  · rintro ⟨g, b, hb, hl, he⟩
    obtain ⟨hb0, eg⟩ := h.gts' g b hb
    refine ⟨σ' g, b, hb0, hl, ?_⟩
    rw [← h.iou p a _ b ha hb0, eg]
    exact he
  · rintro ⟨g, b, hb, hl, he⟩
    exact ⟨σ g, b, (h.gts g b hb).1, hl, by rw [h.iou p a g b ha hb]; exact he⟩

theorem Shuffled.counted {x x' : Det × (Nat → Nat → Rat)} {σ σ' τ τ' : Nat → Nat} (h : Shuffled x x' σ σ' τ τ') {s : Rat} {v : String} {p : Nat}
    (hc : Counted x s v p) : Counted x' s v (τ p) := by
  obtain ⟨hp, hor⟩ := hc
  refine ⟨h.passing hp, ?_⟩
  obtain ⟨a, ha, _⟩ := hp
  rcases hor with ht | hno
  · exact Or.inl ((h.touches ha).2 ht)
  · right
    intro a' ha' w hw ht
    have : a' = a := Option.some.inj (ha'.symm.trans (h.pds p a ha).1)
    subst this
    exact hno a' ha w hw ((h.touches ha).1 ht)

/-- Injective images count. -/
theorem count_le_image {n m : Nat} {P Q : Nat → Bool} (f : Nat → Nat) (hf : ∀ i < n, P i = true → f i < m ∧ Q (f i) = true)
    (hi : ∀ i < n, ∀ j < n, P i = true → P j = true → f i = f j → i = j) : ((List.range n).filter P).length ≤ ((List.range m).filter Q).length := by
  rw [← List.length_map (as := (List.range n).filter P) (f := f)]
  apply List.Subperm.length_le
  apply List.Nodup.subperm
  · rw [List.nodup_map_iff_inj_on ((List.nodup_range).filter _)]
    intro i hi' j hj' he
    simp only [List.mem_filter, List.mem_range] at hi' hj'
    exact hi i hi'.1 j hj'.1 hi'.2 hj'.2 he
  · intro z hz
    obtain ⟨i, hi', rfl⟩ := List.mem_map.1 hz
    simp only [List.mem_filter, List.mem_range] at hi' ⊢
    exact hf i hi'.1 hi'.2

theorem Shuffled.hitCount_le {x x' : Det × (Nat → Nat → Rat)} {σ σ' τ τ' : Nat → Nat} (h : Shuffled x x' σ σ' τ τ') (hn : NoEqualOverlap x ∨ KeepsOrder x σ)
    (t s : Rat) (v : String) : hitCount x t s v ≤ hitCount x' t s v := by
  classical
  unfold hitCount
  have hg : ∀ g < x.1.gts.length, (∃ b, x'.1.gts[σ g]? = some b) ∧ σ' (σ g) = g := by
    intro g hg
    obtain ⟨q1, q2⟩ := h.gts g _ (List.getElem?_eq_getElem hg)
    exact ⟨⟨_, q1⟩, q2⟩
  apply count_le_image σ
  · intro g hlt hh
    refine ⟨(List.getElem?_eq_some_iff.1 (hg g hlt).1.choose_spec).1, ?_⟩
    simp only [decide_eq_true_eq] at hh ⊢
    exact h.hit hn hh
  · intro i hi j hj _ _ he
    rw [← (hg i hi).2, ← (hg j hj).2, he]

theorem Shuffled.pdCount_le {x x' : Det × (Nat → Nat → Rat)} {σ σ' τ τ' : Nat → Nat} (h : Shuffled x x' σ σ' τ τ')
    (s : Rat) (v : String) : pdCount x s v ≤ pdCount x' s v := by
  classical
  unfold pdCount
  have hg : ∀ p < x.1.pds.length, (∃ a, x'.1.pds[τ p]? = some a) ∧ τ' (τ p) = p := by
    intro p hp
    obtain ⟨q1, q2⟩ := h.pds p _ (List.getElem?_eq_getElem hp)
    exact ⟨⟨_, q1⟩, q2⟩
  apply count_le_image τ
  · intro p hlt hh
    refine ⟨(List.getElem?_eq_some_iff.1 (hg p hlt).1.choose_spec).1, ?_⟩
    simp only [decide_eq_true_eq] at hh ⊢
    exact h.counted hh
  · intro i hi j hj _ _ he
    rw [← (hg i hi).2, ← (hg j hj).2, he]

theorem Shuffled.noEqualOverlap {x x' : Det × (Nat → Nat → Rat)} {σ σ' τ τ' : Nat → Nat} (h : Shuffled x x' σ σ' τ τ') (hn : NoEqualOverlap x) :
    NoEqualOverlap x' := by
  intro p a ha v hv g b g' b' hb hl hb' hl' heps he
  obtain ⟨hb0, e1⟩ := h.gts' g b hb
  obtain ⟨hb0', e2⟩ := h.gts' g' b' hb'
  obtain ⟨ha0, _⟩ := h.pds' p a ha
  rw [← h.symm.iou p a g b ha hb] at heps he
  rw [← h.symm.iou p a g' b' ha hb'] at he
  have := hn _ a ha0 v hv _ b _ b' hb0 hl hb0' hl' heps he
  rw [← e1, ← e2, this]

theorem Shuffled.gt_length {x x' : Det × (Nat → Nat → Rat)} {σ σ' τ τ' : Nat → Nat} (h : Shuffled x x' σ σ' τ τ') (v : String) :
    (x.1.gts.filter (fun a => decide (a.labels.headD "" = v))).length ≤ (x'.1.gts.filter (fun a => decide (a.labels.headD "" = v))).length := by
  have e : ∀ l : List Ann, (l.filter (fun a => decide (a.labels.headD "" = v))).length
      = ((List.range l.length).filter (fun g => (l[g]?.any (fun a => decide (a.labels.headD "" = v))))).length := by
    intro l
    have hr : List.range l.length = l.zipIdx.map Prod.snd := by rw [List.zipIdx_map_snd, List.range_eq_range']
    rw [hr, List.filter_map, List.length_map]
    conv_lhs => rw [← List.zipIdx_map_fst 0 l]
    rw [List.filter_map, List.length_map]
    congr 1
    apply List.filter_congr
    rintro ⟨a, g⟩ hm
    have := mem_zipIdx'.1 hm
    simp [this]
  rw [e, e]
  apply count_le_image σ
  · intro g hlt hh
    obtain ⟨q1, _⟩ := h.gts g _ (List.getElem?_eq_getElem hlt)
    rw [List.getElem?_eq_getElem hlt] at hh
    exact ⟨(List.getElem?_eq_some_iff.1 q1).1, by rw [q1]; exact hh⟩
  · intro i hi j hj _ _ he
    rw [← (h.gts i _ (List.getElem?_eq_getElem hi)).2, ← (h.gts j _ (List.getElem?_eq_getElem hj)).2, he]

/-- The annotations of a detection in another order. -/
def Rearranged (x x' : Det × (Nat → Nat → Rat)) : Prop := ∃ σ σ' τ τ', Shuffled x x' σ σ' τ τ'

/-- The predictions of a detection in another order. -/
def PdsRearranged (x x' : Det × (Nat → Nat → Rat)) : Prop := ∃ τ τ', Shuffled x x' id id τ τ'

/-- The full statement of C91: the order in which the annotations of a detection are listed does not matter for the counts. -/
def OrderFree : Prop :=
  ∀ e e' : Built, HistoryOk e.calls.flatten → HistoryOk e'.calls.flatten → SizesOk (Loader.init.addAll e.calls) → SizesOk (Loader.init.addAll e'.calls) →
    DistinctLabels e.calls.flatten → DistinctLabels e'.calls.flatten → List.Forall₂ Rearranged e.calls.flatten e'.calls.flatten → ∀ t s v,
      e.gt v = e'.gt v ∧ e.tp t s v = e'.tp t s v ∧ e.fp t s v = e'.fp t s v ∧ e.fn t s v = e'.fn t s v

/-- Counts under a rearrangement that finds the same number of ground truths. -/
theorem order_counts {R : Det × (Nat → Nat → Rat) → Det × (Nat → Nat → Rat) → Prop} (e e' : Built) (hH : HistoryOk e.calls.flatten) (hH' : HistoryOk e'.calls.flatten)
    (hS : SizesOk (Loader.init.addAll e.calls)) (hS' : SizesOk (Loader.init.addAll e'.calls)) (hD : DistinctLabels e.calls.flatten)
    (hD' : DistinctLabels e'.calls.flatten) (h : List.Forall₂ R e.calls.flatten e'.calls.flatten) (hR : ∀ x x', R x x' → Rearranged x x') (t s : Rat) (v : String)
    (hh : ∀ x x', R x x' → hitCount x t s v = hitCount x' t s v) :
    e.gt v = e'.gt v ∧ e.tp t s v = e'.tp t s v ∧ e.fp t s v = e'.fp t s v ∧ e.fn t s v = e'.fn t s v := by
  obtain ⟨a1, a2, a3, a4, a5⟩ := C54_exact e hH hD hS t s v
  obtain ⟨b1, b2, b3, b4, b5⟩ := C54_exact e' hH' hD' hS' t s v
  have hgt : e.gt v = e'.gt v := by
    rw [a1, b1]
    unfold gtNumber
    refine sum_forall₂ h (fun x _ y _ hxy => ?_)
    obtain ⟨σ, σ', τ, τ', hs⟩ := hR x y hxy
    exact Nat.le_antisymm (hs.gt_length v) (hs.symm.gt_length v)
  have htp : e.tp t s v = e'.tp t s v := by
    by_cases ht : 0 < t
    · rw [a4 ht, b4 ht]
      exact sum_forall₂ h (fun x _ y _ hxy => hh x y hxy)
    · rw [a5 (not_lt.1 ht), b5 (not_lt.1 ht)]
  have hpd : e.tp t s v + e.fp t s v = e'.tp t s v + e'.fp t s v := by
    rw [a2, b2]
    refine sum_forall₂ h (fun x _ y _ hxy => ?_)
    obtain ⟨σ, σ', τ, τ', hs⟩ := hR x y hxy
    exact Nat.le_antisymm (hs.pdCount_le s v) (hs.symm.pdCount_le s v)
  exact ⟨hgt, htp, by omega, by omega⟩

/-- **C91 (predictions).** The predictions of the detections are listed in another order: the counts of every label stay at all thresholds. -/
theorem C91_predictions (e e' : Built) (hH : HistoryOk e.calls.flatten) (hH' : HistoryOk e'.calls.flatten)
    (hS : SizesOk (Loader.init.addAll e.calls)) (hS' : SizesOk (Loader.init.addAll e'.calls)) (hD : DistinctLabels e.calls.flatten)
    (hD' : DistinctLabels e'.calls.flatten) (h : List.Forall₂ PdsRearranged e.calls.flatten e'.calls.flatten) (t s : Rat) (v : String) :
    e.gt v = e'.gt v ∧ e.tp t s v = e'.tp t s v ∧ e.fp t s v = e'.fp t s v ∧ e.fn t s v = e'.fn t s v := by
  refine order_counts e e' hH hH' hS hS' hD hD' h (fun x x' ⟨τ, τ', hs⟩ => ⟨_, _, _, _, hs⟩) t s v ?_
  rintro x x' ⟨τ, τ', hs⟩
  exact Nat.le_antisymm (hs.hitCount_le (Or.inr (fun _ _ _ _ h => h)) t s v) (hs.symm.hitCount_le (Or.inr (fun _ _ _ _ h => h)) t s v)

/-- **C91 (partial).** Ground truths and predictions are listed in another order, and no prediction overlaps two ground truths of one of its
labels equally: the counts of every label stay at all thresholds. Missing: equal overlaps, for which it is false (`C91_violation`). -/
theorem C91_order_partial (e e' : Built) (hH : HistoryOk e.calls.flatten) (hH' : HistoryOk e'.calls.flatten)
    (hS : SizesOk (Loader.init.addAll e.calls)) (hS' : SizesOk (Loader.init.addAll e'.calls)) (hD : DistinctLabels e.calls.flatten)
    (hD' : DistinctLabels e'.calls.flatten) (h : List.Forall₂ (fun x x' => Rearranged x x' ∧ NoEqualOverlap x) e.calls.flatten e'.calls.flatten) (t s : Rat) (v : String) :
    e.gt v = e'.gt v ∧ e.tp t s v = e'.tp t s v ∧ e.fp t s v = e'.fp t s v ∧ e.fn t s v = e'.fn t s v := by
  refine order_counts e e' hH hH' hS hS' hD hD' h (fun x x' hx => hx.1) t s v ?_
  rintro x x' ⟨⟨σ, σ', τ, τ', hs⟩, hn⟩
  exact Nat.le_antisymm (hs.hitCount_le (Or.inl hn) t s v) (hs.symm.hitCount_le (Or.inl (hs.noEqualOverlap hn)) t s v)

/-! ## Instances -/

/-- Two cats; the first prediction overlaps both equally, the second only the first one. -/
def tieDet : Det × (Nat → Nat → Rat) :=
  (⟨"d", [⟨"g0", ["cat"], [], ""⟩, ⟨"g1", ["cat"], [], ""⟩], [⟨"p0", ["cat"], [9 / 10], ""⟩, ⟨"p1", ["cat"], [8 / 10], ""⟩], ""⟩,
    fun p g => if p = 0 then 3 / 5 else if g = 0 then 9 / 10 else 0)

/-- The cats in the other order. -/
def tieDet' : Det × (Nat → Nat → Rat) :=
  (⟨"d", [⟨"g1", ["cat"], [], ""⟩, ⟨"g0", ["cat"], [], ""⟩], [⟨"p0", ["cat"], [9 / 10], ""⟩, ⟨"p1", ["cat"], [8 / 10], ""⟩], ""⟩,
    fun p g => if p = 0 then 3 / 5 else if g = 1 then 9 / 10 else 0)

theorem tie_ok : HistoryOk [tieDet] ∧ HistoryOk [tieDet'] ∧ DistinctLabels [tieDet] ∧ DistinctLabels [tieDet'] ∧
    SizesOk (Loader.init.addAll [[tieDet]]) ∧ SizesOk (Loader.init.addAll [[tieDet']]) := by
  refine ⟨⟨?_, ?_, ?_⟩, ⟨?_, ?_, ?_⟩, ?_, ?_, ⟨by decide +kernel, by decide +kernel, by decide +kernel, by decide +kernel⟩,
    ⟨by decide +kernel, by decide +kernel, by decide +kernel, by decide +kernel⟩⟩
  · simp [tieDet]
  · simp [tieDet]
  · intro x hx p g
    rw [List.mem_singleton.1 hx]
    simp only [tieDet]
    split
    · norm_num
    · split <;> norm_num
  · simp [tieDet']
  · simp [tieDet']
  · intro x hx p g
    rw [List.mem_singleton.1 hx]
    simp only [tieDet']
    split
    · norm_num
    · split <;> norm_num
  · unfold DistinctLabels
    decide +kernel
  · unfold DistinctLabels
    decide +kernel

theorem tie_rearranged : Rearranged tieDet tieDet' := by
  refine ⟨fun g => 1 - g, fun g => 1 - g, id, id, ?_, ?_, ?_, ?_, ?_⟩
  · intro g b hb
    rcases g with _ | _ | g <;> simp_all [tieDet, tieDet']
  · intro g b hb
    rcases g with _ | _ | g <;> simp_all [tieDet, tieDet']
  · intro p a ha
    exact ⟨ha, rfl⟩
  · intro p a ha
    exact ⟨ha, rfl⟩
  · intro p a g b ha hb
    rcases g with _ | _ | g <;> simp_all [tieDet, tieDet']

theorem tie_first : hitCount tieDet (1 / 2) (1 / 2) "cat" ≤ 1 := by
  classical
  have h1 : ¬ Hit tieDet (1 / 2) (1 / 2) "cat" 1 := by
    rintro ⟨p, ⟨a, ha, _⟩, ⟨_, heps, hbest⟩, ht⟩
    have := (hbest 0 ⟨"g0", ["cat"], [], ""⟩ rfl rfl).2 (by omega)
    rcases p with _ | p
    · exact absurd this (by simp [tieDet])
    · exact absurd ht (by norm_num [tieDet])
  unfold hitCount
  have : ((List.range tieDet.1.gts.length).filter (fun g => decide (Hit tieDet (1 / 2) (1 / 2) "cat" g))).length ≤ ([0] : List Nat).length := by
    apply List.Subperm.length_le
    apply List.Nodup.subperm ((List.nodup_range).filter _)
    intro g hg
    simp only [List.mem_filter, List.mem_range, decide_eq_true_eq] at hg
    have hlt : g < 2 := hg.1
    rcases g with _ | _ | g
    · simp
    · exact absurd hg.2 h1
    · omega
  exact this

theorem tie_second : hitCount tieDet' (1 / 2) (1 / 2) "cat" = 2 := by
  classical
  have h0 : Hit tieDet' (1 / 2) (1 / 2) "cat" 0 := by
    refine ⟨0, ⟨⟨"p0", ["cat"], [9 / 10], ""⟩, rfl, by simp, by decide +kernel, by decide +kernel⟩, ⟨⟨_, rfl, rfl⟩, by decide +kernel, ?_⟩, by decide +kernel⟩
    intro g' b' _ _
    exact ⟨le_of_eq rfl, fun h => absurd h (by omega)⟩
  have h1 : Hit tieDet' (1 / 2) (1 / 2) "cat" 1 := by
    refine ⟨1, ⟨⟨"p1", ["cat"], [8 / 10], ""⟩, rfl, by simp, by decide +kernel, by decide +kernel⟩, ⟨⟨_, rfl, rfl⟩, by decide +kernel, ?_⟩, by decide +kernel⟩
    intro g' b' hb' _
    rcases g' with _ | _ | g'
    · norm_num [tieDet']
    · norm_num [tieDet']
    · simp [tieDet'] at hb'
  unfold hitCount
  have hr : List.range tieDet'.1.gts.length = [0, 1] := rfl
  rw [hr]
  simp only [List.filter_cons, h0, h1, decide_true, if_true, List.filter_nil]
  rfl

/-- **C91 is false of the code**: a prediction overlaps two ground truths equally and is compared with the one listed first; another
prediction overlaps only one of them. Listing the ground truths in one order gives one true positive, in the other two. -/
theorem C91_violation : ¬ OrderFree := by
  intro h
  obtain ⟨e, he⟩ := built_exists [[tieDet]]
  obtain ⟨e', he'⟩ := built_exists [[tieDet']]
  obtain ⟨k1, k2, k3, k4, k5, k6⟩ := tie_ok
  have f : e.calls.flatten = [tieDet] := by rw [he]; rfl
  have f' : e'.calls.flatten = [tieDet'] := by rw [he']; rfl
  have q := (h e e' (f ▸ k1) (f' ▸ k2) (he ▸ k5) (he' ▸ k6) (f ▸ k3) (f' ▸ k4) (by
    rw [f, f']
    exact List.Forall₂.cons tie_rearranged List.Forall₂.nil) (1 / 2) (1 / 2) "cat").2.1
  have a := (C54_exact e (f ▸ k1) (f ▸ k3) (he ▸ k5) (1 / 2) (1 / 2) "cat").2.2.2.1 (by norm_num)
  have b := (C54_exact e' (f' ▸ k2) (f' ▸ k4) (he' ▸ k6) (1 / 2) (1 / 2) "cat").2.2.2.1 (by norm_num)
  rw [f] at a
  rw [f'] at b
  simp only [List.map_cons, List.map_nil, List.sum_cons, List.sum_nil, Nat.add_zero] at a b
  have := tie_first
  have := tie_second
  omega

/-- A third prediction on the first detection. -/
def moreDet : Det × (Nat → Nat → Rat) :=
  (⟨"d", tieDet.1.gts, tieDet.1.pds ++ [⟨"p2", ["cat"], [7 / 10], ""⟩], ""⟩, fun p g => if p = 0 then 3 / 5 else if g = 0 ∧ p = 1 then 9 / 10 else 0)

theorem more_adds : AddsOne tieDet moreDet ⟨"p2", ["cat"], [7 / 10], ""⟩ := by
  refine ⟨rfl, rfl, ?_⟩
  intro p hp g
  have hlt : p < 2 := hp
  rcases p with _ | _ | p
  · simp [tieDet, moreDet]
  · simp [tieDet, moreDet]
  · omega

/-- The hypotheses of C90 hold: the third prediction is added and finds nothing. -/
example : Adds [tieDet] [moreDet] tieDet moreDet ⟨"p2", ["cat"], [7 / 10], ""⟩ ∧ FindsNothing tieDet moreDet (1 / 2) (1 / 2) "cat" ∧
    Passing moreDet (1 / 2) "cat" 2 ∧ HistoryOk [moreDet] ∧ DistinctLabels [moreDet] ∧ List.Forall₂ Extends [tieDet] [moreDet] := by
  refine ⟨⟨more_adds, [], [], rfl, rfl⟩, ?_, ⟨⟨"p2", ["cat"], [7 / 10], ""⟩, rfl, by simp, by decide +kernel, by decide +kernel⟩, ⟨?_, ?_, ?_⟩, ?_,
    List.Forall₂.cons more_adds.extends List.Forall₂.nil⟩
  · intro g _ ht
    exact absurd ht (by norm_num [tieDet, moreDet])
  · simp [tieDet, moreDet]
  · simp [tieDet, moreDet]
  · intro x hx p g
    rw [List.mem_singleton.1 hx]
    simp only [moreDet]
    split
    · norm_num
    · split <;> norm_num
  · unfold DistinctLabels
    decide +kernel

/-- One prediction that overlaps two cats differently. -/
def clearDet : Det × (Nat → Nat → Rat) :=
  (⟨"d", [⟨"g0", ["cat"], [], ""⟩, ⟨"g1", ["cat"], [], ""⟩], [⟨"p0", ["cat"], [9 / 10], ""⟩], ""⟩, fun _ g => if g = 0 then 9 / 10 else 1 / 5)

/-- The cats in the other order. -/
def clearDet' : Det × (Nat → Nat → Rat) :=
  (⟨"d", [⟨"g1", ["cat"], [], ""⟩, ⟨"g0", ["cat"], [], ""⟩], [⟨"p0", ["cat"], [9 / 10], ""⟩], ""⟩, fun _ g => if g = 1 then 9 / 10 else 1 / 5)

example : Rearranged clearDet clearDet' ∧ NoEqualOverlap clearDet := by
  refine ⟨⟨fun g => 1 - g, fun g => 1 - g, id, id, ?_, ?_, ?_, ?_, ?_⟩, ?_⟩
  · intro g b hb
    rcases g with _ | _ | g <;> simp_all [clearDet, clearDet']
  · intro g b hb
    rcases g with _ | _ | g <;> simp_all [clearDet, clearDet']
  · intro p a ha
    exact ⟨ha, rfl⟩
  · intro p a ha
    exact ⟨ha, rfl⟩
  · intro p a g b ha hb
    rcases g with _ | _ | g <;> simp_all [clearDet, clearDet']
  · intro p a _ v _ g b g' b' hb _ hb' _ _ he
    have h1 : g < 2 := (List.getElem?_eq_some_iff.1 hb).1
    have h2 : g' < 2 := (List.getElem?_eq_some_iff.1 hb').1
    rcases g with _ | _ | g <;> rcases g' with _ | _ | g' <;> first | rfl | omega | (norm_num [clearDet] at he)

end Verif.Detection
