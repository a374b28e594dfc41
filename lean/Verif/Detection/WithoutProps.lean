import Verif.Detection.MatrixProps

/-!
# C117: a score threshold leaves out the predictions below it

(`object_detection/computation.py` 380-480, 628-890, `object_detection/evaluator.py` 386-602)
-/

namespace Verif.Detection

/-- The second detection is the first without the predictions all of whose scores are below `s`; `τ` is the place a prediction had. -/
structure Without (s : Rat) (x x' : Det × (Nat → Nat → Rat)) (τ : Nat → Nat) : Prop where
  gts : x'.1.gts = x.1.gts
  pds : ∀ (p : Nat) (a : Ann), x'.1.pds[p]? = some a → x.1.pds[τ p]? = some a
  iou : ∀ p, p < x'.1.pds.length → ∀ g, x'.2 p g = x.2 (τ p) g
  mono : ∀ p q, p < x'.1.pds.length → q < x'.1.pds.length → p < q → τ p < τ q
  kept : ∀ (p : Nat) (a : Ann), x'.1.pds[p]? = some a → ∃ c ∈ a.scores, s ≤ c
  all : ∀ (p : Nat) (a : Ann), x.1.pds[p]? = some a → (∃ c ∈ a.scores, s ≤ c) → ∃ p', p' < x'.1.pds.length ∧ τ p' = p

section

variable {s : Rat} {x x' : Det × (Nat → Nat → Rat)} {τ : Nat → Nat}

theorem Without.lt (h : Without s x x' τ) {p : Nat} (hp : p < x'.1.pds.length) : τ p < x.1.pds.length :=
  (List.getElem?_eq_some_iff.1 (h.pds p _ (List.getElem?_eq_getElem hp))).1

theorem Without.inj (h : Without s x x' τ) {p q : Nat} (hp : p < x'.1.pds.length) (hq : q < x'.1.pds.length) (he : τ p = τ q) : p = q := by
  rcases Nat.lt_trichotomy p q with hlt | rfl | hlt
  · have := h.mono p q hp hq hlt
    omega
  · rfl
  · have := h.mono q p hq hp hlt
    omega

theorem Without.get (h : Without s x x' τ) {p : Nat} (hp : p < x'.1.pds.length) : x.1.pds[τ p]? = x'.1.pds[p]? := by
  rw [List.getElem?_eq_getElem hp]
  exact h.pds p _ (List.getElem?_eq_getElem hp)

theorem Without.extends (h : Without s x x' τ) : Extends x' x :=
  ⟨h.gts.symm, fun p a ha => ⟨τ p, h.pds p a ha, fun g => (h.iou p (List.getElem?_eq_some_iff.1 ha).1 g).symm⟩⟩

theorem lookup_mem_right {a : Ann} {v : String} (h : EPSILON < scoreOf v a) : scoreOf v a ∈ a.scores := by
  unfold scoreOf at h ⊢
  cases hl : (a.labels.zip a.scores).lookup v with
  | none =>
    rw [hl] at h
    exact absurd h (by decide +kernel)
  | some c =>
    rw [List.lookup_eq_some_iff] at hl
    obtain ⟨l1, l2, he, _⟩ := hl
    have : (v, c) ∈ a.labels.zip a.scores := by rw [he]; simp
    exact (List.of_mem_zip this).2

/-- A passing prediction is kept. -/
theorem Without.passing (h : Without s x x' τ) {s' : Rat} (hs : s ≤ s') {v : String} {p : Nat} (hp : Passing x s' v p) :
    ∃ p', p' < x'.1.pds.length ∧ τ p' = p ∧ Passing x' s' v p' := by
  obtain ⟨a, ha, hv, h1, h2⟩ := hp
  obtain ⟨p', hp', rfl⟩ := h.all p a ha ⟨_, lookup_mem_right h2, hs.trans h1⟩
  exact ⟨p', hp', rfl, a, by rw [← h.get hp']; exact ha, hv, h1, h2⟩

theorem Without.hitCount (h : Without s x x' τ) {s' : Rat} (hs : s ≤ s') (t : Rat) (v : String) : hitCount x t s' v = hitCount x' t s' v := by
  apply Nat.le_antisymm
  · apply hitCount_le h.gts
    rintro g ⟨p, hp, hn, ht⟩
    obtain ⟨p', hp', rfl, hpass⟩ := h.passing hs hp
    exact ⟨p', hpass, (nearest_moved h.gts (h.iou p' hp')).2 hn, by rw [h.iou p' hp']; exact ht⟩
  · exact hitCount_le h.gts.symm (fun g => h.extends.hit)

theorem Without.counted (h : Without s x x' τ) {s' : Rat} {v : String} {p : Nat} (hp : p < x'.1.pds.length) :
    Counted x s' v (τ p) ↔ Counted x' s' v p := by
  unfold Counted Passing
  rw [h.get hp]
  simp only [touches_moved h.gts (h.iou p hp)]

theorem Without.pdCount (h : Without s x x' τ) {s' : Rat} (hs : s ≤ s') (v : String) : pdCount x s' v = pdCount x' s' v := by
  classical
  unfold Detection.pdCount
  have h1 : (((List.range x'.1.pds.length).filter (fun p => decide (Counted x' s' v p))).map τ).Perm
      ((List.range x.1.pds.length).filter (fun p => decide (Counted x s' v p))) := by
    rw [List.perm_ext_iff_of_nodup]
    · intro q
      rw [List.mem_map, List.mem_filter, List.mem_range, decide_eq_true_eq]
      constructor
      · rintro ⟨p, hp, rfl⟩
        rw [List.mem_filter, List.mem_range, decide_eq_true_eq] at hp
        exact ⟨h.lt hp.1, (h.counted hp.1).2 hp.2⟩
      · rintro ⟨hq, hc⟩
        obtain ⟨p', hp', rfl, _⟩ := h.passing hs hc.1
        refine ⟨p', ?_, rfl⟩
        rw [List.mem_filter, List.mem_range, decide_eq_true_eq]
        exact ⟨hp', (h.counted hp').1 hc⟩
    · rw [List.nodup_map_iff_inj_on (List.nodup_range.filter _)]
      intro p hp q hq he
      rw [List.mem_filter, List.mem_range] at hp hq
      exact h.inj hp.1 hq.1 he
    · exact List.nodup_range.filter _
  rw [← h1.length_eq, List.length_map]

/-! ## The matching -/

theorem Without.score (h : Without s x x' τ) {p : Nat} (hp : p < x'.1.pds.length) : scoreAt x (τ p) = scoreAt x' p := by
  unfold scoreAt
  rw [h.get hp]

theorem headD_one {a : Ann} (h1 : a.scores.length = 1) {c : Rat} (hc : c ∈ a.scores) : a.scores.headD 0 = c := by
  obtain ⟨d, hd⟩ := List.length_eq_one_iff.1 h1
  rw [hd] at hc ⊢
  exact (List.mem_singleton.1 hc).symm

/-- For predictions with one score: kept are those with a score of at least `s`. -/
theorem Without.kept_iff (h : Without s x x' τ) (h1 : ∀ a ∈ x.1.pds, a.scores.length = 1) :
    (∀ p, p < x'.1.pds.length → s ≤ scoreAt x (τ p)) ∧ ∀ p, p < x.1.pds.length → s ≤ scoreAt x p → ∃ p', p' < x'.1.pds.length ∧ τ p' = p := by
  constructor
  · intro p hp
    obtain ⟨c, hc, hsc⟩ := h.kept p _ (List.getElem?_eq_getElem hp)
    have hget := h.pds p _ (List.getElem?_eq_getElem hp)
    rw [scoreAt_eq hget, headD_one (h1 _ (List.mem_of_getElem? hget)) hc]
    exact hsc
  · intro p hp hsc
    have hget := List.getElem?_eq_getElem hp
    rw [scoreAt_eq hget] at hsc
    refine h.all p _ hget ⟨_, ?_, hsc⟩
    obtain ⟨d, hd⟩ := List.length_eq_one_iff.1 (h1 _ (List.getElem_mem hp))
    rw [hd]
    exact List.mem_singleton_self _

/-- The matching of the kept predictions is the part of the matching of all predictions. -/
theorem Without.matching (h : Without s x x' τ) (h1 : ∀ a ∈ x.1.pds, a.scores.length = 1) {G : Nat → Nat → Bool} (hG : FirstListed x G) :
    FirstListed x' (fun g p => decide (p < x'.1.pds.length) && G g (τ p)) := by
  obtain ⟨k1, k2⟩ := h.kept_iff h1
  refine ⟨?_, ?_, ?_⟩
  · intro g p hgp
    rw [Bool.and_eq_true, decide_eq_true_eq] at hgp
    obtain ⟨r1, r2, r3⟩ := hG.range _ _ hgp.2
    exact ⟨by rw [h.gts]; exact r1, hgp.1, by rw [h.iou p hgp.1]; exact r3⟩
  · intro g p g' p' hgp hgp' hc
    rw [Bool.and_eq_true, decide_eq_true_eq] at hgp hgp'
    obtain ⟨e1, e2⟩ := hG.one _ _ _ _ hgp.2 hgp'.2 (hc.imp id (congrArg τ))
    exact ⟨e1, h.inj hgp.1 hgp'.1 e2⟩
  · intro g p hg hp hi
    obtain ⟨g', q, b1, b2, b3⟩ := hG.best g (τ p) (by rw [← h.gts]; exact hg) (h.lt hp) (by rw [← h.iou p hp]; exact hi)
    obtain ⟨r1, r2, r3⟩ := hG.range _ _ b1
    have hsq : s ≤ scoreAt x q := by
      have := k1 p hp
      rcases b3 with b3 | ⟨b3, _⟩
      · exact this.trans b3.le
      · exact this.trans b3.le
    obtain ⟨p', hp', rfl⟩ := k2 q r2 hsq
    refine ⟨g', p', by rw [Bool.and_eq_true, decide_eq_true_eq]; exact ⟨hp', b1⟩, b2.imp id (h.inj hp' hp), ?_⟩
    rw [← h.score hp, ← h.score hp', h.iou p hp, h.iou p' hp']
    rcases b3 with b3 | ⟨b3, b4 | ⟨b4, b5, b6⟩⟩
    · exact Or.inl b3
    · exact Or.inr ⟨b3, Or.inl b4⟩
    · refine Or.inr ⟨b3, Or.inr ⟨b4, b5, ?_⟩⟩
      by_contra hlt
      have := h.mono p p' hp hp' (not_le.1 hlt)
      omega

theorem Without.scorePasses (h : Without s x x' τ) (s' : Rat) {p : Nat} (hp : p < x'.1.pds.length) :
    Detection.scorePasses x s' (τ p) = Detection.scorePasses x' s' p := by
  unfold Detection.scorePasses
  rw [h.get hp]

/-- A prediction with a passing score is kept. -/
theorem Without.passes (h : Without s x x' τ) (h1 : ∀ a ∈ x.1.pds, a.scores.length = 1) {s' : Rat} (hs : s ≤ s') {p : Nat}
    (hp : Detection.scorePasses x s' p = true) : ∃ p', p' < x'.1.pds.length ∧ τ p' = p := by
  unfold Detection.scorePasses at hp
  cases ha : x.1.pds[p]? with
  | none => rw [ha] at hp; exact absurd hp Bool.false_ne_true
  | some a =>
    rw [ha] at hp
    simp only [Bool.and_eq_true, decide_eq_true_eq] at hp
    refine (h.kept_iff h1).2 p (List.getElem?_eq_some_iff.1 ha).1 ?_
    rw [scoreAt_eq ha]
    exact hs.trans hp.2

theorem Without.pair (h : Without s x x' τ) {G G' : Nat → Nat → Bool} (hG : ∀ g p, p < x'.1.pds.length → G' g p = G g (τ p)) (t s' : Rat)
    {g p : Nat} (hp : p < x'.1.pds.length) : pairPasses x' G' t s' g p = pairPasses x G t s' g (τ p) := by
  unfold pairPasses
  rw [hG g p hp, h.iou p hp, h.scorePasses s' hp]

theorem Without.hasLabel (h : Without s x x' τ) {p : Nat} (hp : p < x'.1.pds.length) (v : String) :
    hasLabel x'.1.pds p v = Detection.hasLabel x.1.pds (τ p) v := by
  unfold Detection.hasLabel
  rw [h.get hp]

theorem Without.cell (h : Without s x x' τ) (h1 : ∀ a ∈ x.1.pds, a.scores.length = 1) {G G' : Nat → Nat → Bool}
    (hG : ∀ g p, p < x'.1.pds.length → G' g p = G g (τ p)) (t : Rat) {s' : Rat} (hs : s ≤ s') (gl pl : String) :
    cellOf x G t s' gl pl = cellOf x' G' t s' gl pl := by
  unfold cellOf
  have hp : ((pairsWith x' (fun g p => pairPasses x' G' t s' g p && (Detection.hasLabel x'.1.gts g gl && Detection.hasLabel x'.1.pds p pl))).map
      (fun y => (y.1, τ y.2))).Perm
      (pairsWith x (fun g p => pairPasses x G t s' g p && (Detection.hasLabel x.1.gts g gl && Detection.hasLabel x.1.pds p pl))) := by
    rw [List.perm_ext_iff_of_nodup]
    · rintro ⟨g, q⟩
      rw [List.mem_map, mem_pairsWith]
      constructor
      · rintro ⟨⟨g', p⟩, hm, he⟩
        rw [mem_pairsWith] at hm
        rw [Prod.mk.injEq] at he
        obtain ⟨rfl, rfl⟩ := he
        obtain ⟨⟨m1, m2⟩, m3⟩ := hm
        rw [h.pair hG t s' m2, h.gts, h.hasLabel m2] at m3
        exact ⟨⟨by rw [← h.gts]; exact m1, h.lt m2⟩, m3⟩
      · rintro ⟨⟨m1, m2⟩, m3⟩
        have hsc : Detection.scorePasses x s' q = true := by
          unfold pairPasses at m3
          simp only [Bool.and_eq_true] at m3
          exact m3.1.2
        obtain ⟨p', hp', rfl⟩ := h.passes h1 hs hsc
        refine ⟨(g, p'), ?_, rfl⟩
        rw [mem_pairsWith, h.pair hG t s' hp', h.gts, h.hasLabel hp']
        exact ⟨⟨m1, hp'⟩, m3⟩
    · rw [List.nodup_map_iff_inj_on (pairsWith_nodup _)]
      rintro ⟨g, p⟩ ha ⟨g', p'⟩ hb he
      rw [mem_pairsWith] at ha hb
      rw [Prod.mk.injEq] at he
      rw [Prod.mk.injEq]
      exact ⟨he.1, h.inj ha.1.2 hb.1.2 he.2⟩
    · exact pairsWith_nodup _
  rw [← hp.length_eq, List.length_map]

theorem Without.missed (h : Without s x x' τ) (h1 : ∀ a ∈ x.1.pds, a.scores.length = 1) {G G' : Nat → Nat → Bool}
    (hG : ∀ g p, p < x'.1.pds.length → G' g p = G g (τ p)) (t : Rat) {s' : Rat} (hs : s ≤ s') (l : String) :
    missedOf x G t s' l = missedOf x' G' t s' l := by
  unfold missedOf
  rw [h.gts]
  congr 1
  apply List.filter_congr
  intro g _
  congr 2
  rw [Bool.eq_iff_iff, List.any_eq_true, List.any_eq_true]
  constructor
  · rintro ⟨q, hq, hp⟩
    have hsc : Detection.scorePasses x s' q = true := by
      unfold pairPasses at hp
      simp only [Bool.and_eq_true] at hp
      exact hp.2
    obtain ⟨p', hp', rfl⟩ := h.passes h1 hs hsc
    exact ⟨p', List.mem_range.2 hp', by rw [h.pair hG t s' hp']; exact hp⟩
  · rintro ⟨p, hp, hq⟩
    rw [List.mem_range] at hp
    exact ⟨τ p, List.mem_range.2 (h.lt hp), by rw [← h.pair hG t s' hp]; exact hq⟩

theorem Without.extra (h : Without s x x' τ) (h1 : ∀ a ∈ x.1.pds, a.scores.length = 1) {G G' : Nat → Nat → Bool}
    (hG : ∀ g p, p < x'.1.pds.length → G' g p = G g (τ p)) (t : Rat) {s' : Rat} (hs : s ≤ s') (l : String) :
    extraOf x G t s' l = extraOf x' G' t s' l := by
  unfold extraOf
  have hany : ∀ p, p < x'.1.pds.length → (List.range x'.1.gts.length).any (fun g => pairPasses x' G' t s' g p)
      = (List.range x.1.gts.length).any (fun g => pairPasses x G t s' g (τ p)) := by
    intro p hp
    rw [h.gts]
    congr 1
    funext g
    exact h.pair hG t s' hp
  have hp : (((List.range x'.1.pds.length).filter (fun p => (Detection.scorePasses x' s' p &&
      !(List.range x'.1.gts.length).any (fun g => pairPasses x' G' t s' g p)) && Detection.hasLabel x'.1.pds p l)).map τ).Perm
      ((List.range x.1.pds.length).filter (fun p => (Detection.scorePasses x s' p &&
      !(List.range x.1.gts.length).any (fun g => pairPasses x G t s' g p)) && Detection.hasLabel x.1.pds p l)) := by
    rw [List.perm_ext_iff_of_nodup]
    · intro q
      rw [List.mem_map, List.mem_filter, List.mem_range]
      constructor
      · rintro ⟨p, hp, rfl⟩
        rw [List.mem_filter, List.mem_range] at hp
        obtain ⟨m1, m2⟩ := hp
        rw [← h.scorePasses s' m1, hany p m1, h.hasLabel m1] at m2
        exact ⟨h.lt m1, m2⟩
      · rintro ⟨hq, m2⟩
        have hsc : Detection.scorePasses x s' q = true := by
          simp only [Bool.and_eq_true] at m2
          exact m2.1.1
        obtain ⟨p', hp', rfl⟩ := h.passes h1 hs hsc
        refine ⟨p', ?_, rfl⟩
        rw [List.mem_filter, List.mem_range, ← h.scorePasses s' hp', hany p' hp', h.hasLabel hp']
        exact ⟨hp', m2⟩
    · rw [List.nodup_map_iff_inj_on (List.nodup_range.filter _)]
      intro p hp q hq he
      rw [List.mem_filter, List.mem_range] at hp hq
      exact h.inj hp.1 hq.1 he
    · exact List.nodup_range.filter _
  rw [← hp.length_eq, List.length_map]

end

/-! ## Evaluations -/

/-- **C117 (counts).** Every detection loses the predictions whose scores are all below `s`: at every score threshold from `s` on and every IoU threshold
the counts of every label stay, for predictions with any number of labels. -/
theorem C117_counts (e e' : Built) (hH : HistoryOk e.calls.flatten) (hH' : HistoryOk e'.calls.flatten) (hS : SizesOk (Loader.init.addAll e.calls))
    (hS' : SizesOk (Loader.init.addAll e'.calls)) (hD : DistinctLabels e.calls.flatten) (hD' : DistinctLabels e'.calls.flatten) {s : Rat}
    (h : List.Forall₂ (fun x x' => ∃ τ, Without s x x' τ) e.calls.flatten e'.calls.flatten) (t : Rat) {s' : Rat} (hs : s ≤ s') (v : String) :
    e.gt v = e'.gt v ∧ e.tp t s' v = e'.tp t s' v ∧ e.fp t s' v = e'.fp t s' v ∧ e.fn t s' v = e'.fn t s' v := by
  obtain ⟨a1, a2, a3, a4, a5⟩ := C54_exact e hH hD hS t s' v
  obtain ⟨b1, b2, b3, b4, b5⟩ := C54_exact e' hH' hD' hS' t s' v
  have hgt : e.gt v = e'.gt v := by
    rw [a1, b1]
    unfold gtNumber
    refine sum_forall₂ h (fun x _ y _ hxy => ?_)
    obtain ⟨τ, hw⟩ := hxy
    rw [hw.gts]
  have htp : e.tp t s' v = e'.tp t s' v := by
    by_cases ht : 0 < t
    · rw [a4 ht, b4 ht]
      refine sum_forall₂ h (fun x _ y _ hxy => ?_)
      obtain ⟨τ, hw⟩ := hxy
      exact hw.hitCount hs t v
    · rw [a5 (not_lt.1 ht), b5 (not_lt.1 ht)]
  have hpd : e.tp t s' v + e.fp t s' v = e'.tp t s' v + e'.fp t s' v := by
    rw [a2, b2]
    refine sum_forall₂ h (fun x _ y _ hxy => ?_)
    obtain ⟨τ, hw⟩ := hxy
    exact hw.pdCount hs v
  exact ⟨hgt, htp, by omega, by omega⟩

/-- **C117 (confusion matrix).** Predictions have one label, and every detection loses the predictions with a score below `s`: at every score threshold
from `s` on and every IoU threshold the confusion matrix stays. -/
theorem C117_confusion (e e' : Built) (hH : HistoryOk e.calls.flatten) (hH' : HistoryOk e'.calls.flatten) (hO : OneLabel e.calls.flatten)
    (hO' : OneLabel e'.calls.flatten) (hS : SizesOk (Loader.init.addAll e.calls)) (hS' : SizesOk (Loader.init.addAll e'.calls)) {s : Rat}
    (h : List.Forall₂ (fun x x' => ∃ τ, Without s x x' τ) e.calls.flatten e'.calls.flatten) (t : Rat) {s' : Rat} (hs : s ≤ s') :
    (∀ gl pl, e.cell t s' gl pl = e'.cell t s' gl pl) ∧ (∀ l, e.missed t s' l = e'.missed t s' l) ∧ (∀ l, e.spurious t s' l = e'.spurious t s' l) := by
  obtain ⟨M, hM⟩ := matching_exists e hH hO hS
  obtain ⟨M', hM'⟩ := matching_exists e' hH' hO' hS'
  have hone : ∀ x ∈ e.calls.flatten, ∀ a ∈ x.1.pds, a.scores.length = 1 := fun x hx a ha => by
    rw [(hH.pdLabel x hx a ha).2, hO x hx a ha]
  have hcor : ∀ {x x' τ}, x ∈ e.calls.flatten → x' ∈ e'.calls.flatten → Without s x x' τ →
      ∀ g p, p < x'.1.pds.length → M' x' g p = M x g (τ p) := by
    intro x x' τ hx hx' hw g p hp
    rw [firstListed_unique (hM' x' hx') (hw.matching (hone x hx) (hM x hx))]
    simp [hp]
  obtain ⟨a1, a2, a3⟩ := C115_exact e hH hO hS M hM t s'
  obtain ⟨b1, b2, b3⟩ := C115_exact e' hH' hO' hS' M' hM' t s'
  refine ⟨fun gl pl => ?_, fun l => ?_, fun l => ?_⟩
  · rw [a1, b1]
    refine sum_forall₂ h (fun x hx y hy hxy => ?_)
    obtain ⟨τ, hw⟩ := hxy
    exact hw.cell (hone x hx) (hcor hx hy hw) t hs gl pl
  · rw [a2, b2]
    refine sum_forall₂ h (fun x hx y hy hxy => ?_)
    obtain ⟨τ, hw⟩ := hxy
    exact hw.missed (hone x hx) (hcor hx hy hw) t hs l
  · rw [a3, b3]
    refine sum_forall₂ h (fun x hx y hy hxy => ?_)
    obtain ⟨τ, hw⟩ := hxy
    exact hw.extra (hone x hx) (hcor hx hy hw) t hs l

/-! ## Samples -/

/-- A ground truth and three predictions, the second with a low score and the largest overlap. -/
def threeDet : Det × (Nat → Nat → Rat) :=
  (⟨"d", [⟨"g", ["a"], [], ""⟩], [⟨"p", ["b"], [3 / 4], ""⟩, ⟨"q", ["a"], [1 / 5], ""⟩, ⟨"r", ["a"], [1 / 2], ""⟩], ""⟩,
    fun p _ => if p = 1 then 9 / 10 else 3 / 5)

/-- The prediction with the low score left out. -/
def threeDet' : Det × (Nat → Nat → Rat) :=
  (⟨"d", [⟨"g", ["a"], [], ""⟩], [⟨"p", ["b"], [3 / 4], ""⟩, ⟨"r", ["a"], [1 / 2], ""⟩], ""⟩, fun _ _ => 3 / 5)

theorem three_without : Without (1 / 4) threeDet threeDet' (fun p => 2 * p) := by
  refine ⟨rfl, ?_, ?_, ?_, ?_, ?_⟩
  · intro p a ha
    rcases p with _ | _ | p <;> simp_all [threeDet, threeDet']
  · intro p hp g
    simp only [threeDet, threeDet']
    rw [if_neg (by omega)]
  · intro p q _ _ hpq
    show 2 * p < 2 * q
    omega
  · intro p a ha
    rcases p with _ | _ | p
    · simp only [threeDet', List.getElem?_cons_zero, Option.some.injEq] at ha
      subst ha
      exact ⟨3 / 4, List.mem_singleton_self _, by norm_num⟩
    · simp only [threeDet', List.getElem?_cons_succ, List.getElem?_cons_zero, Option.some.injEq] at ha
      subst ha
      exact ⟨1 / 2, List.mem_singleton_self _, by norm_num⟩
    · simp [threeDet'] at ha
  · rintro p a ha ⟨c, hc, hs⟩
    rcases p with _ | _ | _ | p
    · exact ⟨0, by decide, rfl⟩
    · simp only [threeDet, List.getElem?_cons_succ, List.getElem?_cons_zero, Option.some.injEq] at ha
      subst ha
      rw [List.mem_singleton.1 hc] at hs
      norm_num at hs
    · exact ⟨1, by decide, rfl⟩
    · simp [threeDet] at ha

/-- The hypotheses of `C117_counts` and `C117_confusion` hold for the sample. -/
example : ∃ e e' : Built, HistoryOk e.calls.flatten ∧ HistoryOk e'.calls.flatten ∧ OneLabel e.calls.flatten ∧ OneLabel e'.calls.flatten ∧
    SizesOk (Loader.init.addAll e.calls) ∧ SizesOk (Loader.init.addAll e'.calls) ∧ DistinctLabels e.calls.flatten ∧ DistinctLabels e'.calls.flatten ∧
    List.Forall₂ (fun x x' => ∃ τ, Without (1 / 4) x x' τ) e.calls.flatten e'.calls.flatten ∧ threeDet ∈ e.calls.flatten := by
  obtain ⟨e, he⟩ := built_exists [[threeDet]]
  obtain ⟨e', he'⟩ := built_exists [[threeDet']]
  have f : e.calls.flatten = [threeDet] := by rw [he]; rfl
  have f' : e'.calls.flatten = [threeDet'] := by rw [he']; rfl
  refine ⟨e, e', ?_⟩
  rw [f, f', he, he']
  refine ⟨⟨?_, ?_, ?_⟩, ⟨?_, ?_, ?_⟩, ?_, ?_, ⟨by decide +kernel, by decide +kernel, by decide +kernel, by decide +kernel⟩,
    ⟨by decide +kernel, by decide +kernel, by decide +kernel, by decide +kernel⟩, ?_, ?_, List.Forall₂.cons ⟨_, three_without⟩ List.Forall₂.nil,
    List.mem_singleton_self _⟩
  · simp [threeDet]
  · simp [threeDet]
  · intro x hx p g
    rw [List.mem_singleton.1 hx]
    simp only [threeDet]
    split <;> norm_num
  · simp [threeDet']
  · simp [threeDet']
  · intro x hx p g
    rw [List.mem_singleton.1 hx]
    simp only [threeDet']
    norm_num
  · unfold OneLabel
    simp [threeDet]
  · unfold OneLabel
    simp [threeDet']
  · unfold DistinctLabels
    simp [threeDet]
  · unfold DistinctLabels
    simp [threeDet']

/-! ## The IoU threshold is not of this kind -/

/-- The second detection is the first with the overlaps below `t` left out. -/
def Cleared (t : Rat) (x x' : Det × (Nat → Nat → Rat)) : Prop :=
  x'.1 = x.1 ∧ ∀ p g, x'.2 p g = if x.2 p g < t then 0 else x.2 p g

/-- What a user expects of the IoU threshold: overlaps below it play no part in the confusion matrix. -/
def OverlapLeavesOut : Prop :=
  ∀ e e' : Built, HistoryOk e.calls.flatten → HistoryOk e'.calls.flatten → OneLabel e.calls.flatten → OneLabel e'.calls.flatten →
    SizesOk (Loader.init.addAll e.calls) → SizesOk (Loader.init.addAll e'.calls) → ∀ t,
    List.Forall₂ (Cleared t) e.calls.flatten e'.calls.flatten → ∀ s gl pl, e.cell t s gl pl = e'.cell t s gl pl

/-- A prediction with a high score touches the ground truth, one with a lower score covers it. -/
def grazed : Det × (Nat → Nat → Rat) :=
  (⟨"d", [⟨"g", ["a"], [], ""⟩], [⟨"p", ["b"], [9 / 10], ""⟩, ⟨"q", ["a"], [4 / 5], ""⟩], ""⟩, fun p _ => if p = 0 then 1 / 10 else 4 / 5)

/-- The touch left out. -/
def grazed' : Det × (Nat → Nat → Rat) :=
  (⟨"d", [⟨"g", ["a"], [], ""⟩], [⟨"p", ["b"], [9 / 10], ""⟩, ⟨"q", ["a"], [4 / 5], ""⟩], ""⟩, fun p _ => if p = 0 then 0 else 4 / 5)

/-- The second prediction is matched. -/
def secondPair : Nat → Nat → Bool := fun g p => decide (g = 0 ∧ p = 1)

theorem grazed_matching : FirstListed grazed firstPair ∧ FirstListed grazed' secondPair := by
  constructor
  · refine ⟨?_, ?_, ?_⟩
    · intro g p h
      obtain ⟨rfl, rfl⟩ := of_decide_eq_true h
      exact ⟨by decide, by decide, by decide +kernel⟩
    · intro g p g' p' h h' _
      obtain ⟨rfl, rfl⟩ := of_decide_eq_true h
      obtain ⟨rfl, rfl⟩ := of_decide_eq_true h'
      exact ⟨rfl, rfl⟩
    · intro g p hg hp _
      have hg : g < 1 := hg
      have hp : p < 2 := hp
      obtain rfl : g = 0 := by omega
      refine ⟨0, 0, by decide, Or.inl rfl, ?_⟩
      rcases (by omega : p = 0 ∨ p = 1) with rfl | rfl
      · exact Or.inr ⟨rfl, Or.inr ⟨rfl, le_refl _, le_refl _⟩⟩
      · exact Or.inl (by decide +kernel)
  · refine ⟨?_, ?_, ?_⟩
    · intro g p h
      obtain ⟨rfl, rfl⟩ := of_decide_eq_true h
      exact ⟨by decide, by decide, by decide +kernel⟩
    · intro g p g' p' h h' _
      obtain ⟨rfl, rfl⟩ := of_decide_eq_true h
      obtain ⟨rfl, rfl⟩ := of_decide_eq_true h'
      exact ⟨rfl, rfl⟩
    · intro g p hg hp hi
      have hg : g < 1 := hg
      have hp : p < 2 := hp
      obtain rfl : g = 0 := by omega
      refine ⟨0, 1, by decide, Or.inl rfl, ?_⟩
      rcases (by omega : p = 0 ∨ p = 1) with rfl | rfl
      · exact absurd hi (by decide +kernel)
      · exact Or.inr ⟨rfl, Or.inr ⟨rfl, le_refl _, le_refl _⟩⟩

/-- **The IoU threshold does not leave out the overlaps below it**: a prediction with a high score that touches a ground truth with an IoU of 1/10 takes it
from the prediction that covers it, also at the threshold 1/2. -/
theorem C117_overlap_violation : ¬ OverlapLeavesOut := by
  intro h
  obtain ⟨e, he⟩ := built_exists [[grazed]]
  obtain ⟨e', he'⟩ := built_exists [[grazed']]
  have f : e.calls.flatten = [grazed] := by rw [he]; rfl
  have f' : e'.calls.flatten = [grazed'] := by rw [he']; rfl
  have k1 : HistoryOk e.calls.flatten := by
    rw [f]
    refine ⟨?_, ?_, ?_⟩
    · simp [grazed]
    · simp [grazed]
    · intro x hx p g
      rw [List.mem_singleton.1 hx]
      simp only [grazed]
      split <;> norm_num
  have k2 : HistoryOk e'.calls.flatten := by
    rw [f']
    refine ⟨?_, ?_, ?_⟩
    · simp [grazed']
    · simp [grazed']
    · intro x hx p g
      rw [List.mem_singleton.1 hx]
      simp only [grazed']
      split <;> norm_num
  have k3 : OneLabel e.calls.flatten := by
    rw [f]
    unfold OneLabel
    simp [grazed]
  have k4 : OneLabel e'.calls.flatten := by
    rw [f']
    unfold OneLabel
    simp [grazed']
  have k5 : SizesOk (Loader.init.addAll e.calls) := by
    rw [he]
    exact ⟨by decide +kernel, by decide +kernel, by decide +kernel, by decide +kernel⟩
  have k6 : SizesOk (Loader.init.addAll e'.calls) := by
    rw [he']
    exact ⟨by decide +kernel, by decide +kernel, by decide +kernel, by decide +kernel⟩
  have q := h e e' k1 k2 k3 k4 k5 k6 (1 / 2) (by
    rw [f, f']
    refine List.Forall₂.cons ⟨rfl, fun p g => ?_⟩ List.Forall₂.nil
    rcases p with _ | p
    · have h0 : grazed.2 0 g < 1 / 2 := by
        show (1 / 10 : Rat) < 1 / 2
        norm_num
      rw [if_pos h0]
      rfl
    · have h0 : ¬ grazed.2 (p + 1) g < 1 / 2 := by
        show ¬ (4 / 5 : Rat) < 1 / 2
        norm_num
      rw [if_neg h0]
      rfl) (1 / 2) "a" "a"
  have a := (C115_exact e k1 k3 k5 (fun _ => firstPair) (by
    rw [f]
    intro x hx
    rw [List.mem_singleton.1 hx]
    exact grazed_matching.1) (1 / 2) (1 / 2)).1 "a" "a"
  have b := (C115_exact e' k2 k4 k6 (fun _ => secondPair) (by
    rw [f']
    intro x hx
    rw [List.mem_singleton.1 hx]
    exact grazed_matching.2) (1 / 2) (1 / 2)).1 "a" "a"
  rw [a, b, f, f'] at q
  exact absurd q (by decide +kernel)

end Verif.Detection
