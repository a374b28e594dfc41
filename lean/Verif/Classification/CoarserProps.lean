import Verif.Classification.MicroProps
import Verif.Segmentation.MergeProps

/-!
# C127: coarser labels of a classification dataset

(`classification/loader.py` 39-97, `classification/computation.py` 89-233)
-/

namespace Verif.Classification

/-- `c'` is the classification `c` with coarser labels: `ρ` gives the new names, and the prediction with the highest score is still the top prediction, with
the same score. Labels that get the same name may be listed once or several times. -/
structure Coarsened (ρ : String → String) (c c' : Classif) : Prop where
  gt : c'.gt = ρ c.gt
  labels : ∀ w, w ∈ c'.preds ↔ ∃ v ∈ c.preds, ρ v = w
  top : ∃ i i' p s, IsWinner c i ∧ IsWinner c' i' ∧ c.preds[i]? = some p ∧ c'.preds[i']? = some (ρ p) ∧ c.scores[i]? = some s ∧ c'.scores[i']? = some s

/-- `e'` was built from the classifications of `e` with coarser labels, added in any order. -/
def Coarser (ρ : String → String) (e e' : Built) : Prop :=
  ∃ l, l.Perm (history e.calls) ∧ List.Forall₂ (Coarsened ρ) l (history e'.calls)

/-- The labels of `e` that get the name `w`. -/
def finer (ρ : String → String) (L : List String) (w : String) : List String := L.filter (fun v => decide (ρ v = w))

/-! ## One classification -/

/-- A score that counts as a prediction. -/
def Counted (t s : Rat) : Prop := t ≤ s ∧ 1 / 100000000 < |s|

theorem made_top {c : Classif} {L : List String} (h : Covers L c) {t : Rat} {i : Nat} {s : Rat} (hw : IsWinner c i) (hs : c.scores[i]? = some s) (j : Nat) :
    Made t true c j ↔ j = i ∧ Counted t s := by
  have hi := (isWinner_argmax h.scores_ne i).1 hw
  constructor
  · rintro ⟨⟨s', h1, h2⟩, h3⟩
    have hj := (isWinner_argmax h.scores_ne j).1 (h3 rfl)
    have : j = i := hj.symm.trans hi
    subst this
    rw [hs] at h1
    obtain rfl := Option.some.inj h1
    exact ⟨rfl, h2⟩
  · rintro ⟨rfl, h2⟩
    exact ⟨⟨s, hs, h2⟩, fun _ => hw⟩

open Classical in
theorem single_tp {c : Classif} {L : List String} (h : Covers L c) (t : Rat) {i : Nat} {p : String} {s : Rat} (hw : IsWinner c i) (hp : c.preds[i]? = some p)
    (hs : c.scores[i]? = some s) (v : String) : specTP [c] t true v = if c.gt = v ∧ p = v ∧ Counted t s then 1 else 0 := by
  have hlt := (List.getElem?_eq_some_iff.1 hp).1
  simp only [specTP, List.map_cons, List.map_nil, List.sum_cons, List.sum_nil, Nat.add_zero]
  rw [countP_range_unique hlt (by intro j hj; rw [decide_eq_true_eq] at hj; exact ((made_top h hw hs j).1 hj.2.2).1)]
  simp only [decide_eq_true_eq, made_top h hw hs, true_and, hp, Option.some.injEq]

open Classical in
theorem single_fp {c : Classif} {L : List String} (h : Covers L c) (t : Rat) {i : Nat} {p : String} {s : Rat} (hw : IsWinner c i) (hp : c.preds[i]? = some p)
    (hs : c.scores[i]? = some s) (v : String) : specFP [c] t true v = if c.gt ≠ v ∧ p = v ∧ Counted t s then 1 else 0 := by
  have hlt := (List.getElem?_eq_some_iff.1 hp).1
  simp only [specFP, List.map_cons, List.map_nil, List.sum_cons, List.sum_nil, Nat.add_zero]
  rw [countP_range_unique hlt (by intro j hj; rw [decide_eq_true_eq] at hj; exact ((made_top h hw hs j).1 hj.2.2).1)]
  simp only [decide_eq_true_eq, made_top h hw hs, true_and, hp, Option.some.injEq]

/-- What a datum adds to the recall denominator of a label. -/
theorem single_truth {c : Classif} {L : List String} (h : Covers L c) (hn : c.preds.Nodup) {t : Rat} (hr : c.gt ∈ c.preds ∨ ∃ i, Made t true c i) (v : String) :
    specTP [c] t true v + specFN [c] t true v = if c.gt = v then 1 else 0 := by
  rcases hr with hr | hr
  · rw [tp_fn_sum [c] (by simpa using ⟨h.valid, hr, hn⟩) t v]
    simp [List.countP_cons]
  · by_cases hv : c.gt = v
    · subst hv
      rw [if_pos rfl]
      exact truth_single h hn hr
    · rw [if_neg hv, specTP_other (Ne.symm hv), specFN_other (Ne.symm hv)]

theorem finer_sum {L : List String} (hL : L.Nodup) (ρ : String → String) (w : String) {x : String} (hx : x ∈ L) (q : Prop)
    [∀ v, Decidable (x = v ∧ q)] [Decidable (ρ x = w ∧ q)] :
    ((finer ρ L w).map (fun v => if x = v ∧ q then 1 else 0)).sum = if ρ x = w ∧ q then 1 else 0 := by
  by_cases h : ρ x = w
  · have := sum_one (L := finer ρ L w) (hL.filter _) (x := x) (List.mem_filter.2 ⟨hx, decide_eq_true h⟩) (f := fun v => if x = v ∧ q then 1 else 0)
      (fun l _ hl => if_neg fun h => hl h.1.symm)
    rw [this]
    by_cases hq : q
    · exact (if_pos (⟨rfl, hq⟩ : x = x ∧ q)).trans (if_pos (⟨h, hq⟩ : ρ x = w ∧ q)).symm
    · exact (if_neg (fun h : x = x ∧ q => hq h.2)).trans (if_neg (fun h : ρ x = w ∧ q => hq h.2)).symm
  · rw [if_neg fun h' => h h'.1, List.sum_eq_zero]
    intro y hy
    obtain ⟨v, hv, rfl⟩ := List.mem_map.1 hy
    refine if_neg fun h' => h ?_
    rw [h'.1]
    exact of_decide_eq_true (List.mem_filter.1 hv).2

section

variable {ρ : String → String} {c c' : Classif} {L L' : List String} {t : Rat}

theorem coarsened_tp (hL : L.Nodup) (h : Covers L c) (h' : Covers L' c') (hc : Coarsened ρ c c') (w : String) :
    ((finer ρ L w).map (fun v => specTP [c] t true v)).sum ≤ specTP [c'] t true w := by
  classical
  obtain ⟨i, i', p, s, h1, h2, h3, h4, h5, h6⟩ := hc.top
  simp only [single_tp h t h1 h3 h5, single_tp h' t h2 h4 h6]
  have e : ∀ v, (if c.gt = v ∧ p = v ∧ Counted t s then 1 else 0) = if c.gt = v ∧ (p = c.gt ∧ Counted t s) then 1 else 0 := by
    intro v
    congr 1
    rw [eq_iff_iff]
    exact ⟨fun h => ⟨h.1, h.2.1.trans h.1.symm, h.2.2⟩, fun h => ⟨h.1, h.2.1.trans h.1, h.2.2⟩⟩
  simp only [e]
  rw [finer_sum hL ρ w h.gt, hc.gt]
  split
  · rename_i hh
    rw [if_pos ⟨hh.1, hh.2.1 ▸ hh.1, hh.2.2⟩]
  · exact Nat.zero_le _

theorem coarsened_predicted (hL : L.Nodup) (h : Covers L c) (h' : Covers L' c') (hc : Coarsened ρ c c') (w : String) :
    ((finer ρ L w).map (fun v => specTP [c] t true v + specFP [c] t true v)).sum = specTP [c'] t true w + specFP [c'] t true w := by
  classical
  obtain ⟨i, i', p, s, h1, h2, h3, h4, h5, h6⟩ := hc.top
  have both : ∀ (g x v : String) (q : Prop), ((if g = v ∧ x = v ∧ q then 1 else 0) + if g ≠ v ∧ x = v ∧ q then 1 else 0) = if x = v ∧ q then 1 else 0 := by
    intro g x v q
    by_cases hg : g = v <;> simp [hg]
  simp only [single_tp h t h1 h3 h5, single_tp h' t h2 h4 h6, single_fp h t h1 h3 h5, single_fp h' t h2 h4 h6, both]
  exact finer_sum hL ρ w (h.preds p (List.mem_of_getElem? h3)) _

theorem coarsened_truth (hL : L.Nodup) (h : Covers L c) (h' : Covers L' c') (hc : Coarsened ρ c c') (hn : c.preds.Nodup) (hn' : c'.preds.Nodup)
    (hr : c.gt ∈ c.preds ∨ Reaches t c) (w : String) :
    ((finer ρ L w).map (fun v => specTP [c] t true v + specFN [c] t true v)).sum = specTP [c'] t true w + specFN [c'] t true w := by
  classical
  obtain ⟨i, i', p, s, h1, h2, h3, h4, h5, h6⟩ := hc.top
  have hr1 : c.gt ∈ c.preds ∨ ∃ i, Made t true c i := hr.imp id (reaches_made h)
  have hr2 : c'.gt ∈ c'.preds ∨ ∃ i, Made t true c' i := by
    refine hr1.imp (fun hg => ?_) ?_
    · rw [hc.gt]
      exact (hc.labels _).2 ⟨_, hg, rfl⟩
    · rintro ⟨j, hj⟩
      exact ⟨i', (made_top h' h2 h6 i').2 ⟨rfl, ((made_top h h1 h5 j).1 hj).2⟩⟩
  simp only [single_truth h hn hr1, single_truth h' hn' hr2]
  have := finer_sum hL ρ w h.gt True
  simp only [and_true] at this
  rw [hc.gt]
  exact this

end

/-! ## Datasets -/

theorem spec_each (cs : List Classif) (t : Rat) (v : String) :
    specTP cs t true v = (cs.map (fun c => specTP [c] t true v)).sum ∧
    specTP cs t true v + specFP cs t true v = (cs.map (fun c => specTP [c] t true v + specFP [c] t true v)).sum ∧
    specTP cs t true v + specFN cs t true v = (cs.map (fun c => specTP [c] t true v + specFN [c] t true v)).sum := by
  induction cs with
  | nil => simp [specTP, specFP, specFN]
  | cons c cs ih =>
    have e := spec_cons c cs t true v
    simp only [Counts.add, Counts.mk.injEq] at e
    simp only [List.map_cons, List.sum_cons]
    rw [← ih.1, ← ih.2.1, ← ih.2.2, e.1, e.2.1, e.2.2.1]
    exact ⟨rfl, by omega, by omega⟩

theorem forall₂_sum {α β : Type} {R : α → β → Prop} {l : List α} {l' : List β} (h : List.Forall₂ R l l') {f : α → Nat} {g : β → Nat}
    (hfg : ∀ a ∈ l, ∀ b ∈ l', R a b → f a ≤ g b) : (l.map f).sum ≤ (l'.map g).sum := by
  induction h with
  | nil => simp
  | cons hr _ ih =>
    simp only [List.map_cons, List.sum_cons]
    have := hfg _ List.mem_cons_self _ List.mem_cons_self hr
    have := ih (fun a ha b hb => hfg a (List.mem_cons_of_mem _ ha) b (List.mem_cons_of_mem _ hb))
    omega

theorem forall₂_sum_eq {α β : Type} {R : α → β → Prop} {l : List α} {l' : List β} (h : List.Forall₂ R l l') {f : α → Nat} {g : β → Nat}
    (hfg : ∀ a ∈ l, ∀ b ∈ l', R a b → f a = g b) : (l.map f).sum = (l'.map g).sum := by
  induction h with
  | nil => simp
  | cons hr _ ih =>
    simp only [List.map_cons, List.sum_cons]
    rw [hfg _ List.mem_cons_self _ List.mem_cons_self hr, ih (fun a ha b hb => hfg a (List.mem_cons_of_mem _ ha) b (List.mem_cons_of_mem _ hb))]

theorem forall₂_left {α β : Type} {R : α → β → Prop} {l : List α} {l' : List β} (h : List.Forall₂ R l l') {b : β} (hb : b ∈ l') : ∃ a ∈ l, R a b := by
  induction h with
  | nil => simp at hb
  | cons hr _ ih =>
    rcases List.mem_cons.1 hb with rfl | h1
    · exact ⟨_, List.mem_cons_self, hr⟩
    · obtain ⟨c, hc, hr⟩ := ih h1
      exact ⟨c, List.mem_cons_of_mem _ hc, hr⟩

section

variable {ρ : String → String} {e e' : Built}

theorem coarser_tp (h : Coarser ρ e e') (t : Rat) (w : String) :
    ((finer ρ e.labels w).map (fun v => specTP (history e.calls) t true v)).sum ≤ specTP (history e'.calls) t true w := by
  obtain ⟨l, hp, hf⟩ := h
  simp only [fun v => (spec_each (history e.calls) t v).1]
  rw [(spec_each (history e'.calls) t w).1, Verif.Segmentation.sum_swap, ← (hp.map _).sum_eq]
  exact forall₂_sum hf fun c hc c' hc' hr => coarsened_tp (linv_reach e.calls).nodup (covers_reach e.calls e.valid c (hp.mem_iff.1 hc))
    (covers_reach e'.calls e'.valid c' hc') hr w

theorem coarser_predicted (h : Coarser ρ e e') (t : Rat) (w : String) :
    ((finer ρ e.labels w).map (fun v => specTP (history e.calls) t true v + specFP (history e.calls) t true v)).sum
      = specTP (history e'.calls) t true w + specFP (history e'.calls) t true w := by
  obtain ⟨l, hp, hf⟩ := h
  simp only [fun v => (spec_each (history e.calls) t v).2.1]
  rw [(spec_each (history e'.calls) t w).2.1, Verif.Segmentation.sum_swap, ← (hp.map _).sum_eq]
  exact forall₂_sum_eq hf fun c hc c' hc' hr => coarsened_predicted (linv_reach e.calls).nodup (covers_reach e.calls e.valid c (hp.mem_iff.1 hc))
    (covers_reach e'.calls e'.valid c' hc') hr w

theorem coarser_truth (h : Coarser ρ e e') (t : Rat) (hn : ∀ c ∈ history e.calls, c.preds.Nodup ∧ (c.gt ∈ c.preds ∨ Reaches t c))
    (hn' : ∀ c ∈ history e'.calls, c.preds.Nodup) (w : String) :
    ((finer ρ e.labels w).map (fun v => specTP (history e.calls) t true v + specFN (history e.calls) t true v)).sum
      = specTP (history e'.calls) t true w + specFN (history e'.calls) t true w := by
  obtain ⟨l, hp, hf⟩ := h
  simp only [fun v => (spec_each (history e.calls) t v).2.2]
  rw [(spec_each (history e'.calls) t w).2.2, Verif.Segmentation.sum_swap, ← (hp.map _).sum_eq]
  exact forall₂_sum_eq hf fun c hc c' hc' hr => coarsened_truth (linv_reach e.calls).nodup (covers_reach e.calls e.valid c (hp.mem_iff.1 hc))
    (covers_reach e'.calls e'.valid c' hc') hr (hn c (hp.mem_iff.1 hc)).1 (hn' c' hc') (hn c (hp.mem_iff.1 hc)).2 w

theorem finer_ne (h : Coarser ρ e e') {w : String} (hw : w ∈ e'.labels) : finer ρ e.labels w ≠ [] := by
  obtain ⟨l, hp, hf⟩ := h
  obtain ⟨c', hc', hcar⟩ := (linv_reach e'.calls).onlyUsed w hw
  obtain ⟨c, hc, hr⟩ := forall₂_left hf hc'
  have hcov := covers_reach e.calls e.valid c (hp.mem_iff.1 hc)
  rcases hcar with rfl | hcar
  · exact List.ne_nil_of_mem (List.mem_filter.2 ⟨hcov.gt, decide_eq_true hr.gt.symm⟩)
  · obtain ⟨v, hv, hρ⟩ := (hr.labels w).1 hcar
    exact List.ne_nil_of_mem (List.mem_filter.2 ⟨hcov.preds v hv, decide_eq_true hρ⟩)

end

theorem precision_ratio (c : Counts) : precision c = Verif.Segmentation.ratio c.tp (c.tp + c.fp) := by
  unfold precision Verif.Segmentation.ratio
  by_cases h : c.tp + c.fp = 0
  · rw [if_neg (by omega), if_pos h]
  · rw [if_pos (by omega), if_neg h]

theorem recall_ratio (c : Counts) : recall c = Verif.Segmentation.ratio c.tp (c.tp + c.fn) := by
  unfold recall Verif.Segmentation.ratio
  by_cases h : c.tp + c.fn = 0
  · rw [if_neg (by omega), if_pos h]
  · rw [if_pos (by omega), if_neg h]

/-- The least of the quotients is reached by a label. -/
theorem least_part {S : List String} (hS : S ≠ []) {a b : String → Nat} {a' b' : Nat} (ha : (S.map a).sum ≤ a') (hb : (S.map b).sum = b') :
    ∃ v ∈ S, Verif.Segmentation.ratio (a v) (b v) ≤ Verif.Segmentation.ratio a' b' := by
  obtain ⟨v0, hv0⟩ := List.exists_mem_of_ne_nil _ hS
  obtain ⟨v, hv, hmin⟩ := Finset.exists_min_image S.toFinset (fun v => Verif.Segmentation.ratio (a v) (b v)) ⟨v0, List.mem_toFinset.2 hv0⟩
  exact ⟨v, List.mem_toFinset.1 hv, Verif.Segmentation.ratio_parts hS ha hb.ge (fun h => hb.trans h) (fun u hu => hmin u (List.mem_toFinset.2 hu))⟩

/-- **C127 (accuracy).** With coarser labels the accuracy is not lower. -/
theorem C127_accuracy {ρ : String → String} {e e' : Built} (h : Coarser ρ e e') (hL : e.labels.length ≤ 100000) (hL' : e'.labels.length ≤ 100000) (t : Rat) :
    ∃ m m', e.metrics t true = some m ∧ e'.metrics t true = some m' ∧ m.accuracy ≤ m'.accuracy := by
  refine ⟨_, _, e.metrics_eq hL t true, e'.metrics_eq hL' t true, ?_⟩
  have hcov := covers_reach e.calls e.valid
  have hcov' := covers_reach e'.calls e'.valid
  have a1 := accuracy_datums (linv_reach e.calls).nodup hcov true t
  have a2 := accuracy_datums (linv_reach e'.calls).nodup hcov' true t
  obtain ⟨l, hp, hf⟩ := h
  have hlen : (history e.calls).length = (history e'.calls).length := hp.length_eq.symm.trans hf.length_eq
  have hle : ((history e.calls).map (fun c => specTP [c] t true c.gt)).sum ≤ ((history e'.calls).map (fun c => specTP [c] t true c.gt)).sum := by
    rw [← (hp.map _).sum_eq]
    refine forall₂_sum hf fun c hc c' hc' hr => ?_
    classical
    have k := hcov c (hp.mem_iff.1 hc)
    obtain ⟨i, i', p, s, h1, h2, h3, h4, h5, h6⟩ := hr.top
    rw [single_tp k t h1 h3 h5, single_tp (hcov' c' hc') t h2 h4 h6]
    split
    · rename_i hh
      rw [if_pos ⟨rfl, by rw [hr.gt, hh.2.1], hh.2.2⟩]
    · exact Nat.zero_le _
  unfold toMetrics
  dsimp only
  change accuracy (e.labels.map (countsOf (history e.calls) true t)) (history e.calls).length * _ = _ at a1
  change accuracy (e'.labels.map (countsOf (history e'.calls) true t)) (history e'.calls).length * _ = _ at a2
  by_cases h0 : (history e.calls).length = 0
  · unfold accuracy
    rw [if_pos h0, if_pos (hlen ▸ h0)]
  · have hpos : (0 : Rat) < (history e'.calls).length := by exact_mod_cast (by omega : 0 < (history e'.calls).length)
    refine le_of_mul_le_mul_right ?_ hpos
    rw [a2]
    have : ((history e'.calls).length : Rat) = (history e.calls).length := by rw [hlen]
    rw [this, a1]
    exact_mod_cast hle

/-- **C127 (precision).** The precision of a coarse label is at least the least of the precisions of its parts. -/
theorem C127_precision {ρ : String → String} {e e' : Built} (h : Coarser ρ e e') (hL : e.labels.length ≤ 100000) (hL' : e'.labels.length ≤ 100000) (t : Rat)
    {w : String} (hw : w ∈ e'.labels) : ∃ v ∈ e.labels, ρ v = w ∧ ∃ x x', e.metricsOf t true v = some x ∧ e'.metricsOf t true w = some x' ∧
      x.precision ≤ x'.precision := by
  obtain ⟨v, hv, hle⟩ := least_part (finer_ne h hw) (coarser_tp h t w) (coarser_predicted h t w)
  obtain ⟨hv, hρ⟩ := List.mem_filter.1 hv
  refine ⟨v, hv, of_decide_eq_true hρ, _, _, by rw [e.metricsOf_eq hL, if_pos hv], by rw [e'.metricsOf_eq hL', if_pos hw], ?_⟩
  dsimp only
  rw [precision_ratio, precision_ratio]
  exact hle

/-- What a user expects of the recall, for datasets with the property `P`. -/
def CoarserRecall (P : Rat → Built → Built → Prop) : Prop :=
  ∀ (ρ : String → String) (e e' : Built), Coarser ρ e e' → e.labels.length ≤ 100000 → e'.labels.length ≤ 100000 → ∀ t, P t e e' → ∀ w ∈ e'.labels,
    ∃ v ∈ e.labels, ρ v = w ∧ ∃ x x', e.metricsOf t true v = some x ∧ e'.metricsOf t true w = some x' ∧ x.recall ≤ x'.recall

/-- **C127 (recall, partial).** The recall of a coarse label is at least the least of the recalls of its parts, if no prediction lists a label twice and
every datum scores its ground truth or has a score that reaches the threshold. Missing: predictions in which the parts of a coarse label are listed side
by side under the new name, for which it is false (`C127_violation`). -/
theorem C127_recall_partial : CoarserRecall (fun t e e' => (∀ c ∈ history e.calls, c.preds.Nodup ∧ (c.gt ∈ c.preds ∨ Reaches t c)) ∧
    ∀ c ∈ history e'.calls, c.preds.Nodup) := by
  intro ρ e e' h hL hL' t hP w hw
  obtain ⟨v, hv, hle⟩ := least_part (finer_ne h hw) (coarser_tp h t w) (coarser_truth h t hP.1 hP.2 w)
  obtain ⟨hv, hρ⟩ := List.mem_filter.1 hv
  refine ⟨v, hv, of_decide_eq_true hρ, _, _, by rw [e.metricsOf_eq hL, if_pos hv], by rw [e'.metricsOf_eq hL', if_pos hw], ?_⟩
  dsimp only
  rw [recall_ratio, recall_ratio]
  exact hle

/-- Cats and dogs are animals. -/
def animals (v : String) : String := if v = "cat" ∨ v = "dog" then "animal" else v

/-- A cat and a dog, both recognised. -/
def petCalls : List (List Classif) := [[⟨"a", "cat", ["cat", "dog"], [9/10, 1/10], ""⟩, ⟨"b", "dog", ["cat", "dog"], [1/10, 9/10], ""⟩]]

/-- The same with the new names in place of the old ones. -/
def animalCalls : List (List Classif) := [[⟨"a", "animal", ["animal", "animal"], [9/10, 1/10], ""⟩, ⟨"b", "animal", ["animal", "animal"], [1/10, 9/10], ""⟩]]

/-- The same with the higher score of each new name. -/
def animalCalls' : List (List Classif) := [[⟨"a", "animal", ["animal"], [9/10], ""⟩, ⟨"b", "animal", ["animal"], [9/10], ""⟩]]

theorem coarsened_of {ρ : String → String} {c c' : Classif} (hg : c'.gt = ρ c.gt) (hl : ∀ w, w ∈ c'.preds ↔ ∃ v ∈ c.preds, ρ v = w) (hs : c.scores ≠ [])
    (hs' : c'.scores ≠ []) (hp : argmax c.scores < c.preds.length) (h1 : c'.preds[argmax c'.scores]? = (c.preds[argmax c.scores]?).map ρ)
    (h2 : c'.scores[argmax c'.scores]? = c.scores[argmax c.scores]?) : Coarsened ρ c c' := by
  obtain ⟨s, h3, _⟩ := argmax_spec c.scores hs
  refine ⟨hg, hl, argmax c.scores, argmax c'.scores, c.preds[argmax c.scores], s, (isWinner_argmax hs _).2 rfl, (isWinner_argmax hs' _).2 rfl,
    List.getElem?_eq_getElem hp, ?_, h3, h2.trans h3⟩
  rw [h1, List.getElem?_eq_getElem hp]
  rfl

theorem pets_animals : List.Forall₂ (Coarsened animals) (history petCalls) (history animalCalls) := by
  have e1 : history petCalls = [⟨"a", "cat", ["cat", "dog"], [9/10, 1/10], ""⟩, ⟨"b", "dog", ["cat", "dog"], [1/10, 9/10], ""⟩] := by decide +kernel
  have e2 : history animalCalls = [⟨"a", "animal", ["animal", "animal"], [9/10, 1/10], ""⟩, ⟨"b", "animal", ["animal", "animal"], [1/10, 9/10], ""⟩] := by decide +kernel
  rw [e1, e2]
  refine .cons (coarsened_of (by decide +kernel) ?_ (by simp) (by simp) (by decide +kernel) (by decide +kernel) (by decide +kernel))
    (.cons (coarsened_of (by decide +kernel) ?_ (by simp) (by simp) (by decide +kernel) (by decide +kernel) (by decide +kernel)) .nil) <;>
  · intro w
    simp [animals, eq_comm]

theorem pets_animals' : List.Forall₂ (Coarsened animals) (history petCalls) (history animalCalls') := by
  have e1 : history petCalls = [⟨"a", "cat", ["cat", "dog"], [9/10, 1/10], ""⟩, ⟨"b", "dog", ["cat", "dog"], [1/10, 9/10], ""⟩] := by decide +kernel
  have e2 : history animalCalls' = [⟨"a", "animal", ["animal"], [9/10], ""⟩, ⟨"b", "animal", ["animal"], [9/10], ""⟩] := by decide +kernel
  rw [e1, e2]
  refine .cons (coarsened_of (by decide +kernel) ?_ (by simp) (by simp) (by decide +kernel) (by decide +kernel) (by decide +kernel))
    (.cons (coarsened_of (by decide +kernel) ?_ (by simp) (by simp) (by decide +kernel) (by decide +kernel) (by decide +kernel)) .nil) <;>
  · intro w
    simp [animals, eq_comm]

theorem pets_report : computePrecisionRecall (Loader.init.addAll petCalls).rows [1 / 2] true (Loader.init.addAll petCalls).labels.length none
    = some [⟨1, [⟨⟨1, 0, 0, 1⟩, 1, 1, 1⟩, ⟨⟨1, 0, 0, 1⟩, 1, 1, 1⟩]⟩] := by decide +kernel

theorem animals_report : computePrecisionRecall (Loader.init.addAll animalCalls).rows [1 / 2] true (Loader.init.addAll animalCalls).labels.length none
    = some [⟨1, [⟨⟨2, 0, 2, 0⟩, 1, 1 / 2, 2 / 3⟩]⟩] := by decide +kernel

/-- **C127 is false of the code** if the predictions of the parts are kept side by side under the new name: a cat and a dog that are both recognised have recall 1,
and as two animals recall 1/2, since each datum is counted as found by its winner and as missed by its other prediction. -/
theorem C127_violation : ¬ CoarserRecall (fun _ e e' => (∀ c ∈ history e.calls, c.preds.Nodup ∧ c.gt ∈ c.preds) ∧ ∀ c ∈ history e'.calls, c.gt ∈ c.preds) := by
  intro h
  obtain ⟨v, hv, _, x, x', h1, h2, h3⟩ := h animals
    ⟨petCalls, by decide +kernel, (Loader.init.addAll petCalls).rows, ⟨List.Perm.refl _, by decide +kernel⟩⟩
    ⟨animalCalls, by decide +kernel, (Loader.init.addAll animalCalls).rows, ⟨List.Perm.refl _, by decide +kernel⟩⟩
    ⟨_, List.Perm.refl _, pets_animals⟩ (by show (Loader.init.addAll petCalls).labels.length ≤ 100000; decide +kernel)
    (by show (Loader.init.addAll animalCalls).labels.length ≤ 100000; decide +kernel) (1 / 2)
    ⟨by show ∀ c ∈ history petCalls, _; decide +kernel, by show ∀ c ∈ history animalCalls, _; decide +kernel⟩ "animal"
    (by show _ ∈ (Loader.init.addAll animalCalls).labels; decide +kernel)
  unfold Built.metricsOf Built.metrics Built.labels at h1 h2
  dsimp only at h1 h2
  rw [pets_report] at h1
  rw [animals_report] at h2
  have hx' : x' = ⟨⟨2, 0, 2, 0⟩, 1, 1 / 2, 2 / 3⟩ := by
    have e : (Loader.init.addAll animalCalls).labels.idxOf "animal" = 0 := by decide +kernel
    rw [e] at h2
    exact (Option.some.inj h2).symm
  have hx : x.recall = 1 := by
    obtain ⟨y, hy, hxy⟩ : ∃ y ∈ ([⟨⟨1, 0, 0, 1⟩, 1, 1, 1⟩, ⟨⟨1, 0, 0, 1⟩, 1, 1, 1⟩] : List LabelMetrics), y = x := ⟨x, List.mem_of_getElem? h1, rfl⟩
    subst hxy
    simp only [List.mem_cons, List.not_mem_nil, or_false, or_self] at hy
    rw [hy]
  rw [hx, hx'] at h3
  norm_num at h3

/-- The hypotheses of `C127_accuracy`, `C127_precision` and `C127_recall_partial` hold for the cat and the dog. -/
example : ∃ e e' : Built, e.calls = petCalls ∧ e'.calls = animalCalls' ∧ Coarser animals e e' ∧ e.labels.length ≤ 100000 ∧ e'.labels.length ≤ 100000 ∧
    (∀ c ∈ history e.calls, c.preds.Nodup ∧ (c.gt ∈ c.preds ∨ Reaches (1 / 2) c)) ∧ (∀ c ∈ history e'.calls, c.preds.Nodup) ∧ "animal" ∈ e'.labels := by
  refine ⟨⟨petCalls, by decide +kernel, (Loader.init.addAll petCalls).rows, ⟨List.Perm.refl _, by decide +kernel⟩⟩,
    ⟨animalCalls', by decide +kernel, (Loader.init.addAll animalCalls').rows, ⟨List.Perm.refl _, by decide +kernel⟩⟩, rfl, rfl,
    ⟨_, List.Perm.refl _, pets_animals'⟩, by show (Loader.init.addAll petCalls).labels.length ≤ 100000; decide +kernel,
    by show (Loader.init.addAll animalCalls').labels.length ≤ 100000; decide +kernel, ?_, by show ∀ c ∈ history animalCalls', _; decide +kernel,
    by show _ ∈ (Loader.init.addAll animalCalls').labels; decide +kernel⟩
  have : ∀ c ∈ history petCalls, c.preds.Nodup ∧ c.gt ∈ c.preds := by decide +kernel
  exact fun c hc => ⟨(this c hc).1, .inl (this c hc).2⟩

end Verif.Classification
