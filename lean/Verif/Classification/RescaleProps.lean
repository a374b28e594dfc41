import Verif.Classification.ShardProps

/-! # C85, C86: label names and score scales in classification -/

namespace Verif.Classification

/-- The classification with other names for its labels and other scores. -/
def Classif.mapped (ρ : String → String) (φ : Rat → Rat) (c : Classif) : Classif :=
  { c with gt := ρ c.gt, preds := c.preds.map ρ, scores := c.scores.map φ }

/-- `φ` is strictly increasing on the values that satisfy `S`. -/
def KeepsOrder (φ : Rat → Rat) (S : Rat → Prop) : Prop := ∀ a b, S a → S b → a < b → φ a < φ b

/-- A score that the classifications use, or the threshold. -/
def Occurs (cs : List Classif) (t : Rat) (s : Rat) : Prop := s = t ∨ ∃ c ∈ cs, s ∈ c.scores

/-- `φ` is strictly increasing on scores and threshold, and moves no score across the two bounds under which scores count as zero
(`1e-8` for the counts, `1e-9` for the confusion matrix). -/
structure Rescales (φ : Rat → Rat) (cs : List Classif) (t : Rat) : Prop where
  order : KeepsOrder φ (Occurs cs t)
  counted : ∀ c ∈ cs, ∀ s ∈ c.scores, 1 / 100000000 < |φ s| ↔ 1 / 100000000 < |s|
  shown : ∀ c ∈ cs, ∀ s ∈ c.scores, 1 / 1000000000 < φ s ↔ 1 / 1000000000 < s

theorem KeepsOrder.lt {φ : Rat → Rat} {S : Rat → Prop} (h : KeepsOrder φ S) {a b : Rat} (ha : S a) (hb : S b) : φ a < φ b ↔ a < b := by
  constructor
  · intro hl
    rcases lt_trichotomy a b with h1 | h1 | h1
    · exact h1
    · rw [h1] at hl; exact absurd hl (lt_irrefl _)
    · exact absurd (h b a hb ha h1) (not_lt_of_gt hl)
  · exact h a b ha hb

theorem KeepsOrder.le {φ : Rat → Rat} {S : Rat → Prop} (h : KeepsOrder φ S) {a b : Rat} (ha : S a) (hb : S b) : φ a ≤ φ b ↔ a ≤ b := by
  rw [← not_lt, ← not_lt, h.lt hb ha]

theorem KeepsOrder.eq {φ : Rat → Rat} {S : Rat → Prop} (h : KeepsOrder φ S) {a b : Rat} (ha : S a) (hb : S b) : φ a = φ b ↔ a = b := by
  rw [le_antisymm_iff, le_antisymm_iff, h.le ha hb, h.le hb ha]

theorem rescales_id (cs : List Classif) (t : Rat) : Rescales (fun s => s) cs t :=
  ⟨fun _ _ _ _ h => h, fun _ _ _ _ => Iff.rfl, fun _ _ _ _ => Iff.rfl⟩

section

variable {ρ : String → String} {φ : Rat → Rat} {cs : List Classif} {t : Rat} (hφ : Rescales φ cs t)

include hφ

theorem winner_mapped {c : Classif} (hc : c ∈ cs) (i : Nat) : IsWinner (c.mapped ρ φ) i ↔ IsWinner c i := by
  have ho : ∀ s ∈ c.scores, Occurs cs t s := fun s hs => Or.inr ⟨c, hc, hs⟩
  unfold IsWinner Classif.mapped
  simp only [List.getElem?_map, Option.map_eq_some_iff, List.mem_map, forall_exists_index, and_imp, forall_apply_eq_imp_iff₂]
  constructor
  · rintro ⟨v, ⟨s, hs, rfl⟩, h1, h2⟩
    have hm := List.mem_of_getElem? hs
    refine ⟨s, hs, fun y hy => (hφ.order.le (ho y hy) (ho s hm)).1 (h1 y hy), ?_⟩
    intro j hj y hy
    exact (hφ.order.lt (ho y (List.mem_of_getElem? hy)) (ho s hm)).1 (h2 j hj y hy)
  · rintro ⟨s, hs, h1, h2⟩
    have hm := List.mem_of_getElem? hs
    refine ⟨φ s, ⟨s, hs, rfl⟩, fun y hy => (hφ.order.le (ho y hy) (ho s hm)).2 (h1 y hy), ?_⟩
    intro j hj y hy
    exact (hφ.order.lt (ho y (List.mem_of_getElem? hy)) (ho s hm)).2 (h2 j hj y hy)

theorem made_mapped {c : Classif} (hc : c ∈ cs) (hm : Bool) (i : Nat) : Made (φ t) hm (c.mapped ρ φ) i ↔ Made t hm c i := by
  unfold Made
  rw [winner_mapped hφ hc]
  refine and_congr_left (fun _ => ?_)
  unfold Classif.mapped
  simp only [List.getElem?_map, Option.map_eq_some_iff]
  constructor
  · rintro ⟨_, ⟨s, hs, rfl⟩, h1, h2⟩
    have hm := List.mem_of_getElem? hs
    exact ⟨s, hs, (hφ.order.le (Or.inl rfl) (Or.inr ⟨c, hc, hm⟩)).1 h1, (hφ.counted c hc s hm).1 h2⟩
  · rintro ⟨s, hs, h1, h2⟩
    have hm := List.mem_of_getElem? hs
    exact ⟨φ s, ⟨s, hs, rfl⟩, (hφ.order.le (Or.inl rfl) (Or.inr ⟨c, hc, hm⟩)).2 h1, (hφ.counted c hc s hm).2 h2⟩

theorem shown_mapped {c : Classif} (hc : c ∈ cs) (hm : Bool) (i : Nat) : Shown (φ t) hm (c.mapped ρ φ) i ↔ Shown t hm c i := by
  unfold Shown
  rw [winner_mapped hφ hc]
  refine and_congr_left (fun _ => ?_)
  unfold Classif.mapped
  simp only [List.getElem?_map, Option.map_eq_some_iff]
  constructor
  · rintro ⟨_, ⟨s, hs, rfl⟩, h1, h2⟩
    have hm := List.mem_of_getElem? hs
    exact ⟨s, hs, (hφ.order.le (Or.inl rfl) (Or.inr ⟨c, hc, hm⟩)).1 h1, (hφ.shown c hc s hm).1 h2⟩
  · rintro ⟨s, hs, h1, h2⟩
    have hm := List.mem_of_getElem? hs
    exact ⟨φ s, ⟨s, hs, rfl⟩, (hφ.order.le (Or.inl rfl) (Or.inr ⟨c, hc, hm⟩)).2 h1, (hφ.shown c hc s hm).2 h2⟩

variable (hρ : ∀ x y, ρ x = ρ y → x = y)

include hρ

theorem countsOf_mapped (hm : Bool) (v : String) : countsOf (cs.map (Classif.mapped ρ φ)) hm (φ t) (ρ v) = countsOf cs hm t v := by
  classical
  have hr : ∀ x, ρ x = ρ v ↔ x = v := fun x => ⟨hρ x v, fun h => by rw [h]⟩
  have hp : ∀ (c : Classif) (i : Nat), (c.mapped ρ φ).preds[i]? = some (ρ v) ↔ c.preds[i]? = some v := by
    intro c i
    unfold Classif.mapped
    simp only [List.getElem?_map, Option.map_eq_some_iff, hr, exists_eq_right]
  have hg : ∀ c : Classif, (c.mapped ρ φ).gt = ρ v ↔ c.gt = v := fun c => hr c.gt
  have hl : ∀ c : Classif, (c.mapped ρ φ).preds.length = c.preds.length := fun c => by unfold Classif.mapped; simp
  have hsum : ∀ f g : Classif → Nat, (∀ c ∈ cs, f (c.mapped ρ φ) = g c) → ((cs.map (Classif.mapped ρ φ)).map f).sum = (cs.map g).sum := by
    intro f g hfg
    rw [List.map_map]
    congr 1
    exact List.map_congr_left hfg
  have hcount : ∀ f g : Classif → Bool, (∀ c ∈ cs, f (c.mapped ρ φ) = g c) → (cs.map (Classif.mapped ρ φ)).countP f = cs.countP g := by
    intro f g hfg
    rw [List.countP_map]
    exact List.countP_congr (fun c hc => by simp only [Function.comp_apply, hfg c hc])
  unfold countsOf specTP specFP specFN specTN
  simp only [Counts.mk.injEq]
  refine ⟨hsum _ _ ?_, hsum _ _ ?_, hcount _ _ ?_, hcount _ _ ?_⟩
  · intro c hc
    simp only [hl, hg, hp, made_mapped hφ hc]
  · intro c hc
    simp only [hl, ne_eq, hg, hp, made_mapped hφ hc]
  · intro c hc
    rw [decide_eq_decide, hg]
    refine and_congr_right (fun _ => ?_)
    simp only [made_mapped hφ hc]
    unfold Classif.mapped
    simp only [List.getElem?_map, Option.map_eq_some_iff]
    constructor
    · rintro ⟨i, _, ⟨P, hP, rfl⟩, h⟩
      exact ⟨i, P, hP, by simpa only [ne_eq, hr] using h⟩
    · rintro ⟨i, P, hP, h⟩
      exact ⟨i, ρ P, ⟨P, hP, rfl⟩, by simpa only [ne_eq, hr] using h⟩
  · intro c hc
    simp only [ne_eq, hg, hp, made_mapped hφ hc]

theorem specCell_mapped (hm : Bool) (g p : String) : specCell (cs.map (Classif.mapped ρ φ)) (φ t) hm (ρ g) (ρ p) = specCell cs t hm g p := by
  classical
  have hr : ∀ v x, ρ x = ρ v ↔ x = v := fun v x => ⟨hρ x v, fun h => by rw [h]⟩
  have hp : ∀ (c : Classif) (i : Nat), (c.mapped ρ φ).preds[i]? = some (ρ p) ↔ c.preds[i]? = some p := by
    intro c i
    unfold Classif.mapped
    simp only [List.getElem?_map, Option.map_eq_some_iff, hr, exists_eq_right]
  have hg : ∀ c : Classif, (c.mapped ρ φ).gt = ρ g ↔ c.gt = g := fun c => hr g c.gt
  unfold specCell
  rw [List.countP_map]
  exact List.countP_congr (fun c hc => by simp only [Function.comp_apply, hg, hp, shown_mapped hφ hc])

theorem specMissed_mapped (hm : Bool) (g : String) : specMissed (cs.map (Classif.mapped ρ φ)) (φ t) hm (ρ g) = specMissed cs t hm g := by
  classical
  have hg : ∀ c : Classif, (c.mapped ρ φ).gt = ρ g ↔ c.gt = g := fun c => ⟨fun h => hρ _ _ h, fun h => by rw [← h]; rfl⟩
  unfold specMissed
  rw [List.countP_map]
  exact List.countP_congr (fun c hc => by simp only [Function.comp_apply, hg, shown_mapped hφ hc])

end

/-- Two evaluators, the second with the classifications of the first under other names and scores. -/
def Mapped (ρ : String → String) (φ : Rat → Rat) (e e' : Built) : Prop :=
  (history e'.calls).Perm ((history e.calls).map (Classif.mapped ρ φ))

theorem Mapped.labels {ρ : String → String} {φ : Rat → Rat} {e e' : Built} (h : Mapped ρ φ e e') (hρ : ∀ x y, ρ x = ρ y → x = y) :
    e'.labels.Perm (e.labels.map ρ) := by
  refine (List.perm_ext_iff_of_nodup (linv_reach e'.calls).nodup ((linv_reach e.calls).nodup.map (fun x y hxy => hρ x y hxy))).2 ?_
  intro v
  constructor
  · intro hv
    obtain ⟨c', hc', hu⟩ := (linv_reach e'.calls).onlyUsed v hv
    obtain ⟨c, hc, rfl⟩ := List.mem_map.1 (List.Perm.mem_iff h |>.1 hc')
    obtain ⟨h1, h2⟩ := covers_reach e.calls e.valid c hc
    unfold Classif.mapped at hu
    rcases hu with rfl | hu
    · exact List.mem_map_of_mem h1
    · obtain ⟨w, hw, rfl⟩ := List.mem_map.1 hu
      exact List.mem_map_of_mem (h2 w hw)
  · intro hv
    obtain ⟨w, hw, rfl⟩ := List.mem_map.1 hv
    obtain ⟨c, hc, hu⟩ := (linv_reach e.calls).onlyUsed w hw
    obtain ⟨h1, h2⟩ := covers_reach e'.calls e'.valid _ (List.Perm.mem_iff h |>.2 (List.mem_map_of_mem hc))
    rcases hu with rfl | hu
    · exact h1
    · exact h2 _ (List.mem_map_of_mem hu)

theorem Mapped.all {ρ : String → String} {φ : Rat → Rat} {e e' : Built} (h : Mapped ρ φ e e') (hρ : ∀ x y, ρ x = ρ y → x = y) {t : Rat}
    (hφ : Rescales φ (history e.calls) t) (hL : e.labels.length ≤ 100000) (hm : Bool) :
    (∀ v, e'.metricsOf (φ t) hm (ρ v) = e.metricsOf t hm v) ∧
    (e'.metrics (φ t) hm).map ThresholdMetrics.accuracy = (e.metrics t hm).map ThresholdMetrics.accuracy ∧
    (∀ g p, e'.cell (φ t) hm (ρ g) (ρ p) = e.cell t hm g p) ∧ ∀ v, e'.missed (φ t) hm (ρ v) = e.missed t hm v := by
  have hlab := h.labels hρ
  have hlen : e'.labels.length = e.labels.length := by rw [hlab.length_eq, List.length_map]
  have hcounts : ∀ v, countsOf (history e'.calls) hm (φ t) (ρ v) = countsOf (history e.calls) hm t v := by
    intro v
    rw [countsOf_perm h, countsOf_mapped hφ hρ]
  refine ⟨?_, ?_, ?_, ?_⟩
  · intro v
    rw [e'.metricsOf_eq (by omega), e.metricsOf_eq hL, hcounts]
    have : ρ v ∈ e'.labels ↔ v ∈ e.labels := by
      rw [hlab.mem_iff, List.mem_map]
      exact ⟨fun ⟨w, hw, he⟩ => hρ _ _ he ▸ hw, fun hv => ⟨v, hv, rfl⟩⟩
    simp only [this]
  · rw [e'.metrics_eq (by omega), e.metrics_eq hL]
    unfold toMetrics
    simp only [Option.map_some, Option.some.injEq]
    rw [Verif.Classification.accuracy_eq, Verif.Classification.accuracy_eq, List.Perm.length_eq h, List.length_map,
      ((hlab.map _).map _).sum_eq, List.map_map, List.map_map, List.map_map]
    congr 3
    exact List.map_congr_left (fun v _ => by simp only [Function.comp_apply, hcounts])
  · intro g p
    rw [Built.cell_eq, Built.cell_eq, ← specCell_mapped hφ hρ]
    unfold specCell
    rw [List.Perm.countP_eq _ h]
  · intro v
    rw [Built.missed_eq, Built.missed_eq, ← specMissed_mapped hφ hρ]
    unfold specMissed
    rw [List.Perm.countP_eq _ h]

/-- **C85 (classification).** The same classifications with other names for the labels, different labels having different names, added in
any order and stored in any tables: the labels are the renamed ones, every label has the counts, precision, recall and F1 of the label it
renames (or neither has any), the accuracies agree, and so do the confusion matrices and the unmatched ground truths. -/
theorem C85_classification {ρ : String → String} (hρ : ∀ x y, ρ x = ρ y → x = y) {e e' : Built}
    (h : (history e'.calls).Perm ((history e.calls).map (fun c => { c with gt := ρ c.gt, preds := c.preds.map ρ })))
    (hL : e.labels.length ≤ 100000) (t : Rat) (hm : Bool) :
    e'.labels.Perm (e.labels.map ρ) ∧ (∀ v, e'.metricsOf t hm (ρ v) = e.metricsOf t hm v) ∧
    (e'.metrics t hm).map ThresholdMetrics.accuracy = (e.metrics t hm).map ThresholdMetrics.accuracy ∧
    (∀ g p, e'.cell t hm (ρ g) (ρ p) = e.cell t hm g p) ∧ ∀ v, e'.missed t hm (ρ v) = e.missed t hm v := by
  have h' : Mapped ρ (fun s => s) e e' := by
    unfold Mapped Classif.mapped
    simpa only [List.map_id'] using h
  exact ⟨h'.labels hρ, h'.all hρ (rescales_id _ t) hL hm⟩

/-- **C86 (classification).** The same classifications with scores on another scale, the threshold moved to that scale as well: if the scale
is strictly increasing on scores and threshold and moves no score across the bounds under which scores count as zero, then all counts,
metrics and matrices stay the same. -/
theorem C86_classification {φ : Rat → Rat} {e e' : Built} {t : Rat} (hφ : Rescales φ (history e.calls) t)
    (h : (history e'.calls).Perm ((history e.calls).map (fun c => { c with scores := c.scores.map φ })))
    (hL : e.labels.length ≤ 100000) (hm : Bool) :
    (∀ v, e'.metricsOf (φ t) hm v = e.metricsOf t hm v) ∧
    (e'.metrics (φ t) hm).map ThresholdMetrics.accuracy = (e.metrics t hm).map ThresholdMetrics.accuracy ∧
    (∀ g p, e'.cell (φ t) hm g p = e.cell t hm g p) ∧ ∀ v, e'.missed (φ t) hm v = e.missed t hm v := by
  have h' : Mapped (fun v => v) φ e e' := by
    unfold Mapped Classif.mapped
    simpa only [List.map_id'] using h
  exact h'.all (fun _ _ he => he) hφ hL hm

theorem mannWhitney_mapped {φ : Rat → Rat} {P N : List Rat} (h : KeepsOrder φ (fun s => s ∈ P ++ N)) :
    mannWhitney (P.map φ) (N.map φ) = mannWhitney P N := by
  unfold mannWhitney
  rw [List.length_map, List.length_map, List.map_map]
  congr 2
  apply List.map_congr_left
  intro n hn
  simp only [Function.comp_apply, List.map_map]
  congr 1
  apply List.map_congr_left
  intro p hp
  have h1 : p ∈ P ++ N := List.mem_append_left _ hp
  have h2 : n ∈ P ++ N := List.mem_append_right _ hn
  simp only [Function.comp_apply, h.lt h2 h1, h.eq h1 h2]

theorem positives_mapped (φ : Rat → Rat) (cs : List Classif) (l : String) :
    positives (cs.map (fun c => { c with scores := c.scores.map φ })) l = (positives cs l).map φ ∧
    negatives (cs.map (fun c => { c with scores := c.scores.map φ })) l = (negatives cs l).map φ := by
  have hg : ∀ c : Classif, givenScore { c with scores := c.scores.map φ } l = (givenScore c l).map φ := by
    intro c
    unfold givenScore
    dsimp only
    rw [List.zip_map_right]
    induction c.preds.zip c.scores with
    | nil => rfl
    | cons x xs ih =>
      rw [List.map_cons, List.lookup_cons, List.lookup_cons, ih]
      simp only [Prod.map_fst, Prod.map_snd, id_eq]
      cases l == x.1 <;> rfl
  unfold positives negatives
  rw [List.filter_map, List.filter_map, List.filterMap_map, List.filterMap_map, List.map_filterMap, List.map_filterMap]
  constructor
  · exact List.filterMap_congr (fun c _ => hg c)
  · exact List.filterMap_congr (fun c _ => hg c)

/-- **C86 (ROC area), partial.** Under the conditions of `C21_rocauc_partial` for both evaluators (top score not 0, the label scored wherever
it is the ground truth, no cut right after the first row of the label) the area depends on the order of the scores of the label only.
Missing: the rest, where the area is not the statistic (`C22_cut_violation`). -/
theorem C86_rocauc_partial {φ : Rat → Rat} {calls calls' : List (List Classif)}
    (h : (history calls').Perm ((history calls).map (fun c => { c with scores := c.scores.map φ })))
    (hv : ∀ c ∈ calls.flatten, c.valid = true) (hv' : ∀ c ∈ calls'.flatten, c.valid = true)
    (hnd : ∀ c ∈ history calls, c.preds.Nodup) {l : String} (hl : ∀ c ∈ history calls, c.gt = l → l ∈ c.preds)
    (hφ : KeepsOrder φ (fun s => s ∈ positives (history calls) l ++ negatives (history calls) l))
    {top : Rat} (htop : top ∈ positives (history calls) l ++ negatives (history calls) l) (htop0 : top ≠ 0) (htop0' : φ top ≠ 0)
    (hmax : ∀ s ∈ positives (history calls) l ++ negatives (history calls) l, s ≤ top)
    {frags frags' : List (List Row)} (hf : FragmentsOf frags (Loader.init.addAll calls).rows.flatten)
    (hf' : FragmentsOf frags' (Loader.init.addAll calls').rows.flatten) {tables tables' : List (List IRow)}
    (hperm : tables.flatten.Perm ((Loader.init.addAll calls).rows.flatten.map irow))
    (hperm' : tables'.flatten.Perm ((Loader.init.addAll calls').rows.flatten.map irow))
    (hsort : tables.flatten.Pairwise (fun a b => b.score ≤ a.score)) (hsort' : tables'.flatten.Pairwise (fun a b => b.score ≤ a.score))
    {chunks chunks' : List (List RocRow)}
    (hchunks : chunks.flatten = rocCurve (List.range (Loader.init.addAll calls).labels.length) (Loader.init.addAll calls).labels.length tables)
    (hchunks' : chunks'.flatten
      = rocCurve (List.range (Loader.init.addAll calls').labels.length) (Loader.init.addAll calls').labels.length tables')
    (hcut : NoCut ((Loader.init.addAll calls).labels.idxOf l) chunks) (hcut' : NoCut ((Loader.init.addAll calls').labels.idxOf l) chunks') :
    rocauc frags' chunks' ((Loader.init.addAll calls').labels.idxOf l) = rocauc frags chunks ((Loader.init.addAll calls).labels.idxOf l) := by
  obtain ⟨p1, p2⟩ := positives_mapped φ (history calls) l
  have hP : (positives (history calls') l).Perm ((positives (history calls) l).map φ) := by
    rw [← p1]
    exact (List.Perm.filter _ h).filterMap _
  have hN : (negatives (history calls') l).Perm ((negatives (history calls) l).map φ) := by
    rw [← p2]
    exact (List.Perm.filter _ h).filterMap _
  have hA : (positives (history calls') l ++ negatives (history calls') l).Perm ((positives (history calls) l ++ negatives (history calls) l).map φ) := by
    rw [List.map_append]
    exact hP.append hN
  have hback : ∀ c' ∈ history calls', ∃ c ∈ history calls, c'.gt = c.gt ∧ c'.preds = c.preds := by
    intro c' hc'
    obtain ⟨c, hc, rfl⟩ := List.mem_map.1 (h.mem_iff.1 hc')
    exact ⟨c, hc, rfl, rfl⟩
  rw [C21_rocauc_partial calls hv hnd hl htop htop0 hmax hf hperm hsort hchunks hcut,
    C21_rocauc_partial (top := φ top) calls' hv' ?_ ?_ (hA.mem_iff.2 (List.mem_map_of_mem htop)) htop0' ?_ hf' hperm' hsort' hchunks' hcut',
    mannWhitney_perm hP hN, mannWhitney_mapped hφ]
  · intro c' hc'
    obtain ⟨c, hc, _, e2⟩ := hback c' hc'
    rw [e2]
    exact hnd c hc
  · intro c' hc' hgt
    obtain ⟨c, hc, e1, e2⟩ := hback c' hc'
    rw [e2]
    exact hl c hc (by rw [← e1]; exact hgt)
  · intro s hs
    obtain ⟨s0, hs0, rfl⟩ := List.mem_map.1 (hA.mem_iff.1 hs)
    exact (hφ.le hs0 htop).2 (hmax s0 hs0)

/-- A classifier with tiny scores: the scale `s / 10` is strictly increasing, but takes the only prediction below the bound. -/
def tiny : Classif := ⟨"u", "a", ["a"], [5 / 100000000], ""⟩

/-- **C86 (violation).** All scores divided by ten, and the threshold too: the order of the scores stays, the true positive is lost. -/
theorem C86_violation : ∃ e e' : Built, history e.calls = [tiny] ∧
    history e'.calls = (history e.calls).map (fun c => { c with scores := c.scores.map (fun s => s / 10) }) ∧
    (e.counts 0 false "a").tp = 1 ∧ (e'.counts (0 / 10) false "a").tp = 0 := by
  classical
  obtain ⟨e, he⟩ := built_exists [[tiny]] (by decide +kernel)
  obtain ⟨e', he'⟩ := built_exists [[{ tiny with scores := tiny.scores.map (fun s => s / 10) }]] (by decide +kernel)
  have h1 : history e.calls = [tiny] := by rw [he]; decide +kernel
  have h2 : history e'.calls = [{ tiny with scores := tiny.scores.map (fun s => s / 10) }] := by rw [he']; decide +kernel
  refine ⟨e, e', h1, by rw [h1, h2]; rfl, ?_, ?_⟩
  · rw [e.counts_eq (by unfold Built.labels; rw [he]; decide +kernel), h1]
    have : Made 0 false tiny 0 := ⟨⟨5 / 100000000, rfl, by norm_num, by norm_num [abs_of_pos]⟩, by simp⟩
    simp [countsOf, specTP, tiny] at this ⊢
    exact this
  · rw [e'.counts_eq (by unfold Built.labels; rw [he']; decide +kernel), h2]
    have : ¬ Made (0 / 10) false { tiny with scores := tiny.scores.map (fun s => s / 10) } 0 := by
      rintro ⟨⟨s, hs, -, h⟩, -⟩
      simp only [tiny, List.map_cons, List.map_nil, List.getElem?_cons_zero, Option.some.injEq] at hs
      rw [← hs] at h
      norm_num [abs_of_pos] at h
    simp [countsOf, specTP, tiny] at this ⊢
    exact this

/-- The sample under other names; the sample with all scores halved, at the threshold 2/5. -/
example : (∃ e e' : Built, e.calls = sample ∧ e.labels.length ≤ 100000 ∧
      (history e'.calls).Perm ((history e.calls).map (fun c => { c with gt := "class " ++ c.gt, preds := c.preds.map ("class " ++ ·) }))) ∧
    (∀ x y : String, "class " ++ x = "class " ++ y → x = y) ∧
    Rescales (fun s => s / 2) (history sample) (2 / 5) := by
  refine ⟨?_, ?_, ?_⟩
  · obtain ⟨e, he⟩ := built_exists sample (by decide +kernel)
    obtain ⟨e', he'⟩ := built_exists [(history sample).map (fun c => { c with gt := "class " ++ c.gt, preds := c.preds.map ("class " ++ ·) })]
      (by decide +kernel)
    refine ⟨e, e', he, by unfold Built.labels; rw [he]; decide +kernel, ?_⟩
    rw [he, he']
    decide +kernel
  · intro x y h
    simpa using h
  · refine ⟨fun a b _ _ h => by linarith, ?_, ?_⟩
    · decide +kernel
    · decide +kernel

end Verif.Classification
