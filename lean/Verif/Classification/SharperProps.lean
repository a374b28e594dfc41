import Verif.Classification.ShardProps
import Verif.Classification.RescaleProps
import Verif.Classification.MonotoneProps
import Verif.Classification.RocUntiedProps

/-! # C110: better scores never hurt (`classification/evaluator.py` 524-640, `classification/computation.py` 9-233) -/

namespace Verif.Classification

/-- `c'` is `c` with a score for the ground truth label that is at least as high, and scores for the other labels that are at
most as high. No score is negative, no label is named twice. -/
structure Sharper (c c' : Classif) : Prop where
  gt : c'.gt = c.gt
  preds : c'.preds = c.preds
  nodup : c.preds.Nodup
  length : c'.scores.length = c.scores.length
  own : ∀ (i : Nat) (s s' : Rat), c.preds[i]? = some c.gt → c.scores[i]? = some s → c'.scores[i]? = some s' → s ≤ s'
  rest : ∀ (i : Nat) (l : String) (s s' : Rat), c.preds[i]? = some l → l ≠ c.gt → c.scores[i]? = some s → c'.scores[i]? = some s' → s' ≤ s
  nonneg : ∀ s ∈ c'.scores, 0 ≤ s

theorem Sharper.lookup {c c' : Classif} (h : Sharper c c') {i : Nat} {s : Rat} (hs : c.scores[i]? = some s) : ∃ s', c'.scores[i]? = some s' := by
  have := (List.getElem?_eq_some_iff.1 hs).1
  exact ⟨_, List.getElem?_eq_getElem (by rw [h.length]; exact this)⟩

theorem Sharper.lookup' {c c' : Classif} (h : Sharper c c') {i : Nat} {s : Rat} (hs : c'.scores[i]? = some s) : ∃ s', c.scores[i]? = some s' := by
  have := (List.getElem?_eq_some_iff.1 hs).1
  exact ⟨_, List.getElem?_eq_getElem (by rw [← h.length]; exact this)⟩

/-- A score other than that of the ground truth label is at most as high as before. -/
theorem Sharper.rest' {c c' : Classif} (h : Sharper c c') (hv : c.preds.length = c.scores.length) {i j : Nat} (hi : c.preds[i]? = some c.gt)
    (hj : j ≠ i) {s s' : Rat} (hs : c.scores[j]? = some s) (hs' : c'.scores[j]? = some s') : s' ≤ s := by
  have hlt : j < c.preds.length := by rw [hv]; exact (List.getElem?_eq_some_iff.1 hs).1
  refine h.rest j c.preds[j] s s' (List.getElem?_eq_getElem hlt) ?_ hs hs'
  intro e
  have h1 : c.preds[j]? = c.preds[i]? := by rw [hi, ← e]; exact List.getElem?_eq_getElem hlt
  exact hj ((List.getElem?_inj hlt h.nodup).1 h1)

/-- The prediction of the ground truth label is still made. -/
theorem Sharper.made {c c' : Classif} (h : Sharper c c') (hv : c.preds.length = c.scores.length) (h0 : ∀ s ∈ c.scores, 0 ≤ s) {t : Rat} {hm : Bool} {i : Nat}
    (hi : c.preds[i]? = some c.gt) (hM : Made t hm c i) : Made t hm c' i := by
  obtain ⟨⟨s, hs, hts, hnz⟩, hw⟩ := hM
  obtain ⟨s', hs'⟩ := h.lookup hs
  have hle := h.own i s s' hi hs hs'
  have h0s := h0 s (List.mem_of_getElem? hs)
  refine ⟨⟨s', hs', le_trans hts hle, ?_⟩, ?_⟩
  · rw [abs_of_nonneg h0s] at hnz
    rw [abs_of_nonneg (le_trans h0s hle)]
    exact lt_of_lt_of_le hnz hle
  · intro hh
    obtain ⟨w, w1, w2, w3⟩ := hw hh
    rw [hs] at w1
    injection w1 with w1
    subst w1
    refine ⟨s', hs', ?_, ?_⟩
    · intro y hy
      obtain ⟨j, hj⟩ := List.mem_iff_getElem?.1 hy
      by_cases hji : j = i
      · subst hji
        rw [hs'] at hj
        injection hj with hj
        exact le_of_eq hj.symm
      · obtain ⟨z, hz⟩ := h.lookup' hj
        exact le_trans (h.rest' hv hi hji hz hj) (le_trans (w2 z (List.mem_of_getElem? hz)) hle)
    · intro j hj y hy
      obtain ⟨z, hz⟩ := h.lookup' hy
      exact lt_of_le_of_lt (h.rest' hv hi (by omega) hz hy) (lt_of_lt_of_le (w3 j hj z hz) hle)

/-- A prediction of another label that is made now would have been made before, or with winner-take-all another was. -/
theorem Sharper.made_rest {c c' : Classif} (h : Sharper c c') {t : Rat} {i : Nat} {l : String}
    (hi : c.preds[i]? = some l) (hl : l ≠ c.gt) (hM : Made t false c' i) : Made t false c i := by
  obtain ⟨⟨s', hs', hts, hnz⟩, _⟩ := hM
  obtain ⟨s, hs⟩ := h.lookup' hs'
  have hle := h.rest i l s s' hi hl hs hs'
  have h0s := h.nonneg s' (List.mem_of_getElem? hs')
  refine ⟨⟨s, hs, le_trans hts hle, ?_⟩, by simp⟩
  rw [abs_of_nonneg h0s] at hnz
  rw [abs_of_nonneg (le_trans h0s hle)]
  exact lt_of_lt_of_le hnz hle

/-- A datum that is a false negative of its label was one before. -/
theorem Sharper.missed {c c' : Classif} (h : Sharper c c') (hv : c.preds.length = c.scores.length) (h0 : ∀ s ∈ c.scores, 0 ≤ s) {t : Rat} {hm : Bool}
    (hM : ∃ i P, c'.preds[i]? = some P ∧ ((P = c.gt ∧ ¬ Made t hm c' i) ∨ (P ≠ c.gt ∧ Made t hm c' i))) :
    ∃ i P, c.preds[i]? = some P ∧ ((P = c.gt ∧ ¬ Made t hm c i) ∨ (P ≠ c.gt ∧ Made t hm c i)) := by
  obtain ⟨i, P, hP, hM⟩ := hM
  rw [h.preds] at hP
  rcases hM with ⟨rfl, hM⟩ | ⟨hne, hM⟩
  · exact ⟨i, _, hP, Or.inl ⟨rfl, fun hm' => hM (h.made hv h0 hP hm')⟩⟩
  · cases hm with
    | false => exact ⟨i, P, hP, Or.inr ⟨hne, h.made_rest hP hne hM⟩⟩
    | true =>
      have hM1 : Made t false c' i := ⟨hM.1, by simp⟩
      obtain ⟨⟨s, hs, hts, hnz⟩, _⟩ := h.made_rest hP hne hM1
      have hnil : c.scores ≠ [] := by
        rintro e
        rw [e] at hs
        simp at hs
      have hw := (isWinner_argmax hnil (argmax c.scores)).2 rfl
      obtain ⟨m, m1, m2, m3⟩ := hw
      have hlt : argmax c.scores < c.preds.length := by rw [hv]; exact (List.getElem?_eq_some_iff.1 m1).1
      have hPm : c.preds[argmax c.scores]? = some c.preds[argmax c.scores] := List.getElem?_eq_getElem hlt
      have hle := m2 s (List.mem_of_getElem? hs)
      have h0s := h0 s (List.mem_of_getElem? hs)
      have hmade : Made t true c (argmax c.scores) := by
        refine ⟨⟨m, m1, le_trans hts hle, ?_⟩, fun _ => ⟨m, m1, m2, m3⟩⟩
        rw [abs_of_nonneg h0s] at hnz
        rw [abs_of_nonneg (le_trans h0s hle)]
        exact lt_of_lt_of_le hnz hle
      refine ⟨_, _, hPm, ?_⟩
      by_cases he : c.preds[argmax c.scores] = c.gt
      · exfalso
        rw [he] at hPm
        have hw1 := (h.made hv h0 hPm hmade).2 rfl
        have hw2 := hM.2 rfl
        have hnil' : c'.scores ≠ [] := by
          intro e
          have := h.length
          rw [e] at this
          exact hnil (List.length_eq_zero_iff.1 this.symm)
        have hidx : argmax c.scores = i := ((isWinner_argmax hnil' _).1 hw1).symm.trans ((isWinner_argmax hnil' _).1 hw2)
        rw [hidx, hP] at hPm
        injection hPm with hPm
        exact hne hPm
      · exact Or.inr ⟨he, hmade⟩

/-- The same datums in any order, with better scores. -/
def SharperAll (cs cs' : List Classif) : Prop :=
  ∃ ds, cs'.Perm ds ∧ List.Forall₂ (fun c d => Sharper c d ∧ ∀ s ∈ c.scores, 0 ≤ s) cs ds

theorem counts_sharper {cs ds : List Classif} (h : List.Forall₂ (fun c d => Sharper c d ∧ ∀ s ∈ c.scores, 0 ≤ s) cs ds)
    (hv : ∀ c ∈ cs, c.preds.length = c.scores.length) (t : Rat) (hm : Bool) (v : String) :
    specTP cs t hm v ≤ specTP ds t hm v ∧ specFN ds t hm v ≤ specFN cs t hm v ∧ (hm = false → specFP ds t hm v ≤ specFP cs t hm v) ∧
    (cs.map (fun c => specTP [c] t hm c.gt)).sum ≤ (ds.map (fun c => specTP [c] t hm c.gt)).sum ∧ cs.length = ds.length := by
  classical
  induction h with
  | nil => simp [specTP, specFN, specFP]
  | @cons c d cs ds hcd _ ih =>
    obtain ⟨i1, i2, i3, i4, i5⟩ := ih (fun c hc => hv c (List.mem_cons_of_mem _ hc))
    obtain ⟨h, h0⟩ := hcd
    have hvc := hv c (by simp)
    have one : ∀ v, (List.range c.preds.length).countP (fun i => decide (c.gt = v ∧ c.preds[i]? = some v ∧ Made t hm c i))
        ≤ (List.range d.preds.length).countP (fun i => decide (d.gt = v ∧ d.preds[i]? = some v ∧ Made t hm d i)) := by
      intro v
      rw [h.preds, h.gt]
      apply List.countP_mono_left
      intro i _ hi
      rw [decide_eq_true_eq] at hi ⊢
      obtain ⟨g1, g2, g3⟩ := hi
      exact ⟨g1, g2, h.made hvc h0 (g1 ▸ g2) g3⟩
    refine ⟨?_, ?_, ?_, ?_, by simp [i5]⟩
    · unfold specTP at i1 ⊢
      rw [List.map_cons, List.map_cons, List.sum_cons, List.sum_cons]
      exact Nat.add_le_add (one v) i1
    · unfold specFN at i2 ⊢
      rw [List.countP_cons, List.countP_cons]
      refine Nat.add_le_add i2 ?_
      by_cases hd : d.gt = v ∧ ∃ i P, d.preds[i]? = some P ∧ ((P = v ∧ ¬ Made t hm d i) ∨ (P ≠ v ∧ Made t hm d i))
      · have hc : c.gt = v ∧ ∃ i P, c.preds[i]? = some P ∧ ((P = v ∧ ¬ Made t hm c i) ∨ (P ≠ v ∧ Made t hm c i)) := by
          obtain ⟨g1, g2⟩ := hd
          rw [h.gt] at g1
          subst g1
          exact ⟨rfl, h.missed hvc h0 g2⟩
        rw [if_pos (decide_eq_true hd), if_pos (decide_eq_true hc)]
      · rw [if_neg (by rw [decide_eq_true_eq]; exact hd)]
        exact Nat.zero_le _
    · intro hf
      subst hf
      unfold specFP at i3 ⊢
      rw [List.map_cons, List.map_cons, List.sum_cons, List.sum_cons]
      refine Nat.add_le_add ?_ (i3 rfl)
      rw [h.preds, h.gt]
      apply List.countP_mono_left
      intro i _ hi
      rw [decide_eq_true_eq] at hi ⊢
      obtain ⟨g1, g2, g3⟩ := hi
      exact ⟨g1, g2, h.made_rest g2 (Ne.symm g1) g3⟩
    · rw [List.map_cons, List.map_cons, List.sum_cons, List.sum_cons]
      refine Nat.add_le_add ?_ i4
      unfold specTP
      simp only [List.map_cons, List.map_nil, List.sum_cons, List.sum_nil, Nat.add_zero]
      have := one c.gt
      rw [h.gt] at this ⊢
      simp only [true_and] at this ⊢
      exact this

theorem precision_better {c c' : Counts} (h1 : c.tp ≤ c'.tp) (h2 : c'.fp ≤ c.fp) : precision c ≤ precision c' := by
  unfold precision
  by_cases h : c.tp + c.fp > 0
  · rw [if_pos h]
    have g0 : (0 : Rat) < ((c.tp + c.fp : Nat) : Rat) := by exact_mod_cast h
    by_cases h' : c'.tp + c'.fp > 0
    · rw [if_pos h']
      have g1 : (0 : Rat) < ((c'.tp + c'.fp : Nat) : Rat) := by exact_mod_cast h'
      rw [div_le_div_iff₀ g0 g1]
      have : c.tp * (c'.tp + c'.fp) ≤ c'.tp * (c.tp + c.fp) := by nlinarith
      exact_mod_cast this
    · rw [if_neg h']
      have : c.tp = 0 := by omega
      rw [this]
      simp
  · rw [if_neg h]
    split
    · exact div_nonneg (Nat.cast_nonneg _) (Nat.cast_nonneg _)
    · exact le_refl _

/-- **C110 (classification).** The same datums, in any order and storage layout, in which the ground truth label has a score at least as
high as before and every other label one at most as high: no label has fewer true positives, more false negatives or a lower recall, the
accuracy is not lower, and without winner-take-all no label has more false positives or a lower precision. -/
theorem C110_classification (e e' : Built) (h : SharperAll (history e.calls) (history e'.calls)) (hL : e.labels.length ≤ 100000)
    (t : Rat) (hm : Bool) :
    (∃ a a', (e.metrics t hm).map ThresholdMetrics.accuracy = some a ∧ (e'.metrics t hm).map ThresholdMetrics.accuracy = some a' ∧ a ≤ a') ∧
    ∀ v ∈ e.labels, ∃ m m', e.metricsOf t hm v = some m ∧ e'.metricsOf t hm v = some m' ∧
      m.counts.tp ≤ m'.counts.tp ∧ m'.counts.fn ≤ m.counts.fn ∧ m.recall ≤ m'.recall ∧
      (hm = false → m'.counts.fp ≤ m.counts.fp ∧ m.precision ≤ m'.precision) := by
  obtain ⟨ds, hp, hs⟩ := h
  have hcov := covers_reach e.calls e.valid
  have hcov' := covers_reach e'.calls e'.valid
  obtain ⟨_, _, _, k4, k5⟩ := counts_sharper hs (fun c hc => (hcov c hc).valid) t hm ""
  have hlab : ∀ v, v ∈ e'.labels ↔ v ∈ e.labels := by
    have hf := List.forall₂_iff_get.1 hs
    intro v
    constructor
    · intro hv
      obtain ⟨d, hd, hu⟩ := (linv_reach e'.calls).onlyUsed v hv
      obtain ⟨i, hi, rfl⟩ := List.mem_iff_getElem.1 (hp.subset hd)
      have hi' : i < (history e.calls).length := by rw [hf.1]; exact hi
      have hsh := (hf.2 i hi' hi).1
      have hc := hcov _ (List.getElem_mem hi')
      rw [List.get_eq_getElem, List.get_eq_getElem] at hsh
      rw [hsh.gt, hsh.preds] at hu
      rcases hu with hu | hu
      · rw [hu]; exact hc.gt
      · exact hc.preds v hu
    · intro hv
      obtain ⟨c, hc, hu⟩ := (linv_reach e.calls).onlyUsed v hv
      change c ∈ history e.calls at hc
      obtain ⟨i, hi, rfl⟩ := List.mem_iff_getElem.1 hc
      have hi' : i < ds.length := by rw [← hf.1]; exact hi
      have hsh := (hf.2 i hi hi').1
      have hd := hcov' _ (hp.symm.subset (List.getElem_mem hi'))
      rw [List.get_eq_getElem, List.get_eq_getElem] at hsh
      rw [← hsh.gt, ← hsh.preds] at hu
      rcases hu with hu | hu
      · rw [hu]; exact hd.gt
      · exact hd.preds v hu
  have hL' : e'.labels.length ≤ 100000 :=
    ((List.subperm_of_subset (linv_reach e'.calls).nodup (fun v hv => (hlab v).1 hv)).length_le).trans hL
  constructor
  · refine ⟨_, _, by rw [e.metrics_eq hL]; rfl, by rw [e'.metrics_eq hL']; rfl, ?_⟩
    have a1 := accuracy_datums (linv_reach e.calls).nodup hcov hm t
    have a2 := accuracy_datums (linv_reach e'.calls).nodup hcov' hm t
    have hlen : (history e'.calls).length = (history e.calls).length := by rw [hp.length_eq, k5]
    have hsum : ((history e'.calls).map (fun c => specTP [c] t hm c.gt)).sum = (ds.map (fun c => specTP [c] t hm c.gt)).sum := (hp.map _).sum_eq
    rw [hsum, hlen] at a2
    unfold toMetrics
    dsimp only
    by_cases h0 : (history e.calls).length = 0
    · rw [hlen, h0, accuracy_eq, accuracy_eq]
      simp
    · have hpos : (0 : Rat) < (history e.calls).length := by exact_mod_cast Nat.pos_of_ne_zero h0
      rw [hlen]
      have h4 : (((history e.calls).map (fun c => specTP [c] t hm c.gt)).sum : Rat) ≤ ((ds.map (fun c => specTP [c] t hm c.gt)).sum : Rat) := by
        exact_mod_cast k4
      refine le_of_mul_le_mul_right ?_ hpos
      calc _ = _ := a1
        _ ≤ _ := h4
        _ = _ := a2.symm
  · intro v hv
    obtain ⟨k1, k2, k3, _⟩ := counts_sharper hs (fun c hc => (hcov c hc).valid) t hm v
    refine ⟨_, _, (e.metricsOf_eq hL t hm v).trans (if_pos hv), (e'.metricsOf_eq hL' t hm v).trans (if_pos ((hlab v).2 hv)), ?_⟩
    rw [countsOf_perm hp hm]
    exact ⟨k1, k2, recall_antitone k1 k2, fun hf => ⟨k3 hf, precision_better k1 (k3 hf)⟩⟩

/-! ## ROC areas -/

theorem sum_forall₂ {α : Type} {R : α → α → Prop} {f g : α → Rat} (h : ∀ a b, R a b → f a ≤ g b) {l l' : List α} (hl : List.Forall₂ R l l') :
    (l.map f).sum ≤ (l'.map g).sum := by
  induction hl with
  | nil => exact le_refl _
  | cons hab _ ih =>
    rw [List.map_cons, List.map_cons, List.sum_cons, List.sum_cons]
    exact add_le_add (h _ _ hab) ih

theorem mannWhitney_better {P P' N N' : List Rat} (hP : List.Forall₂ (fun a b : Rat => a ≤ b) P P') (hN : List.Forall₂ (fun a b : Rat => b ≤ a) N N') :
    mannWhitney P N ≤ mannWhitney P' N' := by
  unfold mannWhitney
  rw [hP.length_eq, hN.length_eq]
  apply div_le_div_of_nonneg_right _ (by positivity)
  refine sum_forall₂ ?_ hN
  intro n n' hn
  refine sum_forall₂ ?_ hP
  intro p p' hp
  split
  · rw [if_pos (by linarith)]
  · split
    · split
      · norm_num
      · rw [if_pos (by linarith)]
    · split
      · norm_num
      · split <;> norm_num

/-- For one label: the datum scores the label at least as high as before if it is the ground truth, at most as high otherwise. -/
def SharperFor (l : String) (c c' : Classif) : Prop :=
  c'.gt = c.gt ∧ c'.preds = c.preds ∧
    ((givenScore c l = none ∧ givenScore c' l = none) ∨
      ∃ s s', givenScore c l = some s ∧ givenScore c' l = some s' ∧ (c.gt = l → s ≤ s') ∧ (c.gt ≠ l → s' ≤ s))

theorem scores_sharper {l : String} {cs ds : List Classif} (h : List.Forall₂ (SharperFor l) cs ds) :
    List.Forall₂ (fun a b : Rat => a ≤ b) (positives cs l) (positives ds l) ∧
    List.Forall₂ (fun a b : Rat => b ≤ a) (negatives cs l) (negatives ds l) := by
  unfold positives negatives
  induction h with
  | nil => exact ⟨.nil, .nil⟩
  | @cons c d cs ds hcd _ ih =>
    obtain ⟨hg, _, hs⟩ := hcd
    simp only [List.filter_cons, hg]
    by_cases hl : c.gt = l
    · rw [if_pos (by simp [hl]), if_pos (by simp [hl]), if_neg (by simp [hl]), if_neg (by simp [hl]), List.filterMap_cons, List.filterMap_cons]
      rcases hs with ⟨h1, h2⟩ | ⟨s, s', h1, h2, h3, _⟩
      · rw [h1, h2]; exact ih
      · rw [h1, h2]
        exact ⟨.cons (h3 hl) ih.1, ih.2⟩
    · rw [if_neg (by simp [hl]), if_neg (by simp [hl]), if_pos (by simp [hl]), if_pos (by simp [hl]), List.filterMap_cons, List.filterMap_cons]
      rcases hs with ⟨h1, h2⟩ | ⟨s, s', h1, h2, _, h3⟩
      · rw [h1, h2]; exact ih
      · rw [h1, h2]
        exact ⟨ih.1, .cons (h3 hl) ih.2⟩

/-- What was computed for the ROC areas of some data: the cache, the sorted intermediate in any division, the curve in a division that
does not cut right after the first row of the label (C22) or any division if no positive and negative tie at the highest score, for a label whose highest score is not 0 (C21). -/
structure RocRun (calls : List (List Classif)) (l : String) where
  valid : ∀ c ∈ calls.flatten, c.valid = true
  top : Rat
  top_mem : top ∈ positives (history calls) l ++ negatives (history calls) l
  top_ne : top ≠ 0
  top_max : ∀ s ∈ positives (history calls) l ++ negatives (history calls) l, s ≤ top
  frags : List (List Row)
  stored : FragmentsOf frags (Loader.init.addAll calls).rows.flatten
  tables : List (List IRow)
  rows : tables.flatten.Perm ((Loader.init.addAll calls).rows.flatten.map irow)
  sorted : tables.flatten.Pairwise (fun a b => b.score ≤ a.score)
  chunks : List (List RocRow)
  curve : chunks.flatten = rocCurve (List.range (Loader.init.addAll calls).labels.length) (Loader.init.addAll calls).labels.length tables
  cuts : NoCut ((Loader.init.addAll calls).labels.idxOf l) chunks ∨ top ∉ positives (history calls) l ∨ top ∉ negatives (history calls) l

/-- The area of the label. -/
def RocRun.area {calls : List (List Classif)} {l : String} (r : RocRun calls l) : Rat :=
  rocauc r.frags r.chunks ((Loader.init.addAll calls).labels.idxOf l)

/-- **C110 (ROC area), partial.** The same datums in any order, each scoring the label at least as high as before where it is the ground truth and
at most as high elsewhere: the area is not lower. Missing: the cases in which the area is not the statistic, see C21, C22 and C109. -/
theorem C110_rocauc_partial {calls calls' : List (List Classif)} {l : String} (r : RocRun calls l) (r' : RocRun calls' l)
    (hnd : ∀ c ∈ history calls, c.preds.Nodup) (hl : ∀ c ∈ history calls, c.gt = l → l ∈ c.preds)
    {ds : List Classif} (hp : (history calls').Perm ds) (hs : List.Forall₂ (SharperFor l) (history calls) ds) : r.area ≤ r'.area := by
  have hf := List.forall₂_iff_get.1 hs
  have back : ∀ d ∈ history calls', ∃ c ∈ history calls, d.gt = c.gt ∧ d.preds = c.preds := by
    intro d hd
    obtain ⟨i, hi, rfl⟩ := List.mem_iff_getElem.1 (hp.subset hd)
    have hi' : i < (history calls).length := by rw [hf.1]; exact hi
    obtain ⟨h1, h2, _⟩ := hf.2 i hi' hi
    exact ⟨_, List.getElem_mem hi', h1, h2⟩
  have e1 : r.area = mannWhitney (positives (history calls) l) (negatives (history calls) l) :=
    C21_either_partial calls r.valid hnd hl r.top_mem r.top_ne r.top_max r.stored r.rows r.sorted r.curve r.cuts
  have e2 : r'.area = mannWhitney (positives (history calls') l) (negatives (history calls') l) := by
    refine C21_either_partial calls' r'.valid ?_ ?_ r'.top_mem r'.top_ne r'.top_max r'.stored r'.rows r'.sorted r'.curve r'.cuts
    · intro d hd
      obtain ⟨c, hc, _, h2⟩ := back d hd
      rw [h2]
      exact hnd c hc
    · intro d hd hg
      obtain ⟨c, hc, h1, h2⟩ := back d hd
      rw [h2]
      exact hl c hc (h1 ▸ hg)
  rw [e1, e2]
  obtain ⟨s1, s2⟩ := scores_sharper hs
  refine le_trans (mannWhitney_better s1 s2) (le_of_eq (mannWhitney_perm ?_ ?_))
  · exact ((hp.symm.filter _).filterMap _)
  · exact ((hp.symm.filter _).filterMap _)

/-- `tied` with better scores for label `a`. -/
def untied : List (List Classif) :=
  [[⟨"d0", "a", ["a", "b"], [3/4, 1/4], ""⟩, ⟨"d1", "b", ["a", "b"], [1/4, 1/4], ""⟩]]

/-- The hypotheses hold for `tied` and `untied`; the area rises from 1/2 to 1. -/
example : List.Forall₂ (SharperFor "a") (history (tied (1/2))) (history untied) ∧ SharperAll (history (tied (1/2))) (history untied) ∧
    pipeline (tied (1/2)) (fun r => [r]) "a" = 1 / 2 ∧ pipeline untied (fun r => [r]) "a" = 1 := by
  refine ⟨?_, ⟨_, .refl _, ?_⟩, by decide +kernel, by decide +kernel⟩
  · refine .cons ⟨rfl, rfl, Or.inr ⟨1/2, 3/4, by decide +kernel, by decide +kernel, by norm_num, by simp⟩⟩
      (.cons ⟨rfl, rfl, Or.inr ⟨1/2, 1/4, by decide +kernel, by decide +kernel, by simp, by norm_num⟩⟩ .nil)
  · refine .cons ⟨⟨rfl, rfl, by decide, rfl, ?_, ?_, by decide +kernel⟩, by decide +kernel⟩
      (.cons ⟨⟨rfl, rfl, by decide, rfl, ?_, ?_, by decide +kernel⟩, by decide +kernel⟩ .nil)
    all_goals
      intro i
      rcases i with _ | _ | i
    all_goals simp
    all_goals try norm_num
    all_goals
      rintro _ _ _ rfl _ rfl rfl
      first | exact absurd rfl ‹_› | norm_num

end Verif.Classification
