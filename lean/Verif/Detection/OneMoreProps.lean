import Verif.Detection.NewHitProps
import Verif.Classification.OneMoreProps

/-!
# C130: one more detection

(`object_detection/loader.py` 49-192, `object_detection/computation.py` 296-567)
-/

namespace Verif.Detection

/-- `e'` was built from the detections of `e` and `x`, added in any order. -/
def OneMoreDet (e e' : Built) (x : Det × (Nat → Nat → Rat)) : Prop := e'.calls.flatten.Perm (x :: e.calls.flatten)

/-- Every ground truth of the label is found. -/
def AllFound (x : Det × (Nat → Nat → Rat)) (t s : Rat) (v : String) : Prop := ∀ g b, x.1.gts[g]? = some b → b.labels = [v] → Hit x t s v g

/-- Every prediction that is counted for the label finds a ground truth of the label, and no two find the same. -/
def NoFalseAlarm (x : Det × (Nat → Nat → Rat)) (t s : Rat) (v : String) : Prop :=
  (∀ p, Counted x s v p → ∃ g, Nearest x v p g ∧ t ≤ x.2 p g) ∧
    ∀ p q g, Counted x s v p → Counted x s v q → Nearest x v p g → Nearest x v q g → p = q

theorem countP_places {α : Type} (q : α → Bool) (l : List α) :
    l.countP q = (List.range l.length).countP (fun i => (l[i]?.map q).getD false) := by
  induction l using List.reverseRecOn with
  | nil => rfl
  | append_singleton l a ih =>
    rw [List.countP_append, ih, List.length_append, List.length_singleton, List.range_succ, List.countP_append]
    congr 1
    · apply List.countP_congr
      intro i hi
      rw [List.getElem?_append_left (List.mem_range.1 hi)]
    · simp [List.countP_cons]

theorem allFound_count {x : Det × (Nat → Nat → Rat)} (hg : ∀ a ∈ x.1.gts, a.labels.length = 1) {t s : Rat} {v : String} (h : AllFound x t s v) :
    (x.1.gts.filter (fun a => decide (a.labels.headD "" = v))).length ≤ hitCount x t s v := by
  classical
  unfold hitCount
  rw [← List.countP_eq_length_filter, ← List.countP_eq_length_filter, countP_places]
  apply List.countP_mono_left
  intro i hi hq
  obtain ⟨b, hb⟩ : ∃ b, x.1.gts[i]? = some b := ⟨_, List.getElem?_eq_getElem (List.mem_range.1 hi)⟩
  rw [hb] at hq
  have hq : b.labels.headD "" = v := by simpa using hq
  obtain ⟨w, hw⟩ := List.length_eq_one_iff.1 (hg b (List.mem_of_getElem? hb))
  refine decide_eq_true (h i b hb ?_)
  rw [hw] at hq ⊢
  simpa using hq

theorem noFalseAlarm_count {x : Det × (Nat → Nat → Rat)} {t s : Rat} {v : String} (h : NoFalseAlarm x t s v) : pdCount x s v ≤ hitCount x t s v := by
  classical
  choose! f hf using h.1
  have := Finset.card_le_card_of_injOn (s := (Finset.range x.1.pds.length).filter (fun p => Counted x s v p))
    (t := (Finset.range x.1.gts.length).filter (fun g => Hit x t s v g)) f (by
      intro p hp
      have hp := (Finset.mem_filter.1 hp).2
      obtain ⟨h1, h2⟩ := hf p hp
      obtain ⟨b, hb, _⟩ := h1.1
      exact Finset.mem_coe.2 (Finset.mem_filter.2 ⟨Finset.mem_range.2 (List.getElem?_eq_some_iff.1 hb).1, p, hp.1, h1, h2⟩)) (by
      intro p hp q hq e
      have hp := (Finset.mem_filter.1 hp).2
      have hq := (Finset.mem_filter.1 hq).2
      exact h.2 p q (f p) hp hq (hf p hp).1 (e ▸ (hf q hq).1))
  unfold pdCount hitCount
  exact this

/-- The counts with one more detection. -/
theorem more_det {e e' : Built} {x : Det × (Nat → Nat → Rat)} (h : OneMoreDet e e' x) (hH : HistoryOk e'.calls.flatten) (hS : SizesOk (Loader.init.addAll e'.calls))
    (hD : DistinctLabels e'.calls.flatten) (t s : Rat) (v : String) :
    e'.gt v = e.gt v + (x.1.gts.filter (fun a => decide (a.labels.headD "" = v))).length ∧
    e'.tp t s v + e'.fp t s v = e.tp t s v + e.fp t s v + pdCount x s v ∧ e.tp t s v ≤ e.gt v ∧
    (0 < t → e'.tp t s v = e.tp t s v + hitCount x t s v) ∧ (t ≤ 0 → e.tp t s v = 0 ∧ e'.tp t s v = 0) := by
  have hsub : e.calls.flatten.Subperm e'.calls.flatten := (List.sublist_cons_self x _).subperm.trans h.symm.subperm
  have hH1 : HistoryOk e.calls.flatten := historyOk_sub hH (fun y hy => hsub.subset hy)
  have hS1 : SizesOk (Loader.init.addAll e.calls) := sizesOk_sub hH hS hsub
  have hD1 : DistinctLabels e.calls.flatten := fun y hy => hD y (hsub.subset hy)
  obtain ⟨a1, a2, a3, a4, a5⟩ := C54_exact e hH1 hD1 hS1 t s v
  obtain ⟨b1, b2, b3, b4, b5⟩ := C54_exact e' hH hD hS t s v
  refine ⟨?_, ?_, by omega, fun ht => ?_, fun ht => ⟨a5 ht, b5 ht⟩⟩
  · rw [a1, b1]
    unfold gtNumber
    rw [(h.map _).sum_eq, List.map_cons, List.sum_cons, Nat.add_comm]
  · rw [a2, b2, (h.map _).sum_eq, List.map_cons, List.sum_cons, Nat.add_comm]
  · rw [a4 ht, b4 ht, (h.map _).sum_eq, List.map_cons, List.sum_cons, Nat.add_comm]

theorem recall_grows {a n h k : Nat} (ha : a ≤ n) (hk : k ≤ h) : recall a n ≤ recall (a + h) (n + k) := by
  unfold recall
  by_cases hn : n > 0
  · have h1 : (0 : Rat) < n := by exact_mod_cast hn
    rw [if_pos hn, if_pos (by omega), div_le_div_iff₀ h1 (by push_cast; positivity)]
    have h2 : (a : Rat) ≤ n := by exact_mod_cast ha
    have h3 : (k : Rat) ≤ h := by exact_mod_cast hk
    push_cast
    nlinarith [mul_nonneg (sub_nonneg.2 h2) (show (0 : Rat) ≤ k by positivity), mul_nonneg (sub_nonneg.2 h3) h1.le]
  · rw [if_neg hn]
    split <;> positivity

theorem recall_shrinks {a n k : Nat} (ha : a ≤ n) : recall a (n + k) ≤ recall a n := by
  unfold recall
  by_cases hn : n > 0
  · have h1 : (0 : Rat) < n := by exact_mod_cast hn
    rw [if_pos hn, if_pos (by omega)]
    exact div_le_div_of_nonneg_left (by positivity) h1 (by push_cast; linarith [show (0 : Rat) ≤ k by positivity])
  · have : a = 0 := by omega
    subst this
    split <;> simp

theorem recall_nonneg' (a n : Nat) : 0 ≤ recall a n := by
  unfold recall
  split <;> positivity

theorem precision_recall (a b : Nat) : precision a b = recall a (a + b) := rfl

/-- **C130 (recall).** One more detection in which every ground truth of the label is found does not lower the recall of the label. -/
theorem C130_recall {e e' : Built} {x : Det × (Nat → Nat → Rat)} (h : OneMoreDet e e' x) (hH : HistoryOk e'.calls.flatten)
    (hS : SizesOk (Loader.init.addAll e'.calls)) (hD : DistinctLabels e'.calls.flatten) {t s : Rat} {v : String} (hr : AllFound x t s v) :
    recall (e.tp t s v) (e.gt v) ≤ recall (e'.tp t s v) (e'.gt v) := by
  obtain ⟨a1, a2, a3, a4, a5⟩ := more_det h hH hS hD t s v
  by_cases ht : 0 < t
  · rw [a4 ht, a1]
    exact recall_grows a3 (allFound_count (hH.gtLabel x (h.mem_iff.2 List.mem_cons_self)) hr)
  · rw [(a5 (not_lt.1 ht)).1]
    refine le_trans (le_of_eq ?_) (recall_nonneg' _ _)
    unfold recall
    split <;> simp

/-- **C130 (precision).** One more detection without false alarms for the label does not lower the precision of the label. -/
theorem C130_precision {e e' : Built} {x : Det × (Nat → Nat → Rat)} (h : OneMoreDet e e' x) (hH : HistoryOk e'.calls.flatten)
    (hS : SizesOk (Loader.init.addAll e'.calls)) (hD : DistinctLabels e'.calls.flatten) {t s : Rat} {v : String} (hr : NoFalseAlarm x t s v) :
    precision (e.tp t s v) (e.fp t s v) ≤ precision (e'.tp t s v) (e'.fp t s v) := by
  obtain ⟨a1, a2, a3, a4, a5⟩ := more_det h hH hS hD t s v
  rw [precision_recall, precision_recall, a2]
  by_cases ht : 0 < t
  · rw [a4 ht]
    exact recall_grows (Nat.le_add_right _ _) (noFalseAlarm_count hr)
  · rw [(a5 (not_lt.1 ht)).1]
    refine le_trans (le_of_eq ?_) (recall_nonneg' _ _)
    unfold recall
    split <;> simp

/-- **C130 (F1).** One more detection in which every ground truth of the label is found without false alarms does not lower the F1 of the label. -/
theorem C130_f1 {e e' : Built} {x : Det × (Nat → Nat → Rat)} (h : OneMoreDet e e' x) (hH : HistoryOk e'.calls.flatten)
    (hS : SizesOk (Loader.init.addAll e'.calls)) (hD : DistinctLabels e'.calls.flatten) {t s : Rat} {v : String} (hr : AllFound x t s v) (hr' : NoFalseAlarm x t s v) :
    f1 (precision (e.tp t s v) (e.fp t s v)) (recall (e.tp t s v) (e.gt v)) ≤ f1 (precision (e'.tp t s v) (e'.fp t s v)) (recall (e'.tp t s v) (e'.gt v)) := by
  have := Verif.Classification.f1_mono (p := precision (e.tp t s v) (e.fp t s v)) (recall_nonneg' _ _) (recall_nonneg' _ _) (C130_precision h hH hS hD hr') (C130_recall h hH hS hD hr)
  unfold Verif.Classification.f1 at this
  unfold f1 EPSILON
  simpa only [mul_assoc] using this

/-- **C130 (nothing found).** One more detection in which no ground truth of the label is found raises neither precision nor recall nor F1 of the label. -/
theorem C130_wrong {e e' : Built} {x : Det × (Nat → Nat → Rat)} (h : OneMoreDet e e' x) (hH : HistoryOk e'.calls.flatten)
    (hS : SizesOk (Loader.init.addAll e'.calls)) (hD : DistinctLabels e'.calls.flatten) {t s : Rat} {v : String} (hr : ∀ g, ¬ Hit x t s v g) :
    precision (e'.tp t s v) (e'.fp t s v) ≤ precision (e.tp t s v) (e.fp t s v) ∧ recall (e'.tp t s v) (e'.gt v) ≤ recall (e.tp t s v) (e.gt v) ∧
    f1 (precision (e'.tp t s v) (e'.fp t s v)) (recall (e'.tp t s v) (e'.gt v)) ≤ f1 (precision (e.tp t s v) (e.fp t s v)) (recall (e.tp t s v) (e.gt v)) := by
  classical
  obtain ⟨a1, a2, a3, a4, a5⟩ := more_det h hH hS hD t s v
  have h0 : hitCount x t s v = 0 := by
    unfold hitCount
    rw [List.length_eq_zero_iff, List.filter_eq_nil_iff]
    exact fun g _ hg => hr g (of_decide_eq_true hg)
  have htp : e'.tp t s v = e.tp t s v := by
    by_cases ht : 0 < t
    · rw [a4 ht, h0, Nat.add_zero]
    · rw [(a5 (not_lt.1 ht)).1, (a5 (not_lt.1 ht)).2]
  have hp : precision (e'.tp t s v) (e'.fp t s v) ≤ precision (e.tp t s v) (e.fp t s v) := by
    rw [precision_recall, precision_recall, a2, htp]
    exact recall_shrinks (Nat.le_add_right _ _)
  have hrec : recall (e'.tp t s v) (e'.gt v) ≤ recall (e.tp t s v) (e.gt v) := by
    rw [a1, htp]
    exact recall_shrinks a3
  refine ⟨hp, hrec, ?_⟩
  have := Verif.Classification.f1_mono (p := precision (e'.tp t s v) (e'.fp t s v)) (recall_nonneg' _ _) (recall_nonneg' _ _) hp hrec
  unfold Verif.Classification.f1 at this
  unfold f1 EPSILON
  simpa only [mul_assoc] using this

/-- A cat and a prediction with the given overlap. -/
def oneCat (o : Rat) : Det × (Nat → Nat → Rat) := (⟨"c", [⟨"g", ["cat"], [], ""⟩], [⟨"p", ["cat"], [9 / 10], ""⟩], ""⟩, fun _ _ => o)

theorem oneCat_found : AllFound (oneCat 1) (1 / 2) (1 / 2) "cat" ∧ NoFalseAlarm (oneCat 1) (1 / 2) (1 / 2) "cat" := by
  have hnear : ∀ p, Nearest (oneCat 1) "cat" p 0 := fun p => ⟨⟨⟨"g", ["cat"], [], ""⟩, rfl, rfl⟩, by norm_num [oneCat, EPSILON], by
    intro g b hb _
    rcases g with _ | g
    · norm_num [oneCat]
    · simp [oneCat] at hb⟩
  refine ⟨?_, fun p _ => ⟨0, hnear p, by norm_num [oneCat]⟩, ?_⟩
  · intro g b hb _
    rcases g with _ | g
    · exact ⟨0, ⟨⟨"p", ["cat"], [9 / 10], ""⟩, rfl, by simp, by decide +kernel, by decide +kernel⟩, hnear 0, by norm_num [oneCat]⟩
    · simp [oneCat] at hb
  · rintro p q g ⟨⟨a, ha, _⟩, _⟩ ⟨⟨b, hb, _⟩, _⟩ _ _
    rcases p with _ | p
    · rcases q with _ | q
      · rfl
      · simp [oneCat] at hb
    · simp [oneCat] at ha

theorem oneCat_missed (g : Nat) : ¬ Hit (oneCat 0) (1 / 2) (1 / 2) "cat" g := by
  rintro ⟨p, _, _, h⟩
  norm_num [oneCat] at h

theorem oneCat_ok {o : Rat} (h : 0 ≤ o ∧ o ≤ 1) : HistoryOk [tieDet, oneCat o] ∧ DistinctLabels [tieDet, oneCat o] := by
  obtain ⟨k1, _, k3, _⟩ := tie_ok
  refine ⟨⟨?_, ?_, ?_⟩, ?_⟩
  · intro x hx
    rcases List.mem_cons.1 hx with rfl | hx
    · exact k1.gtLabel _ (by simp)
    · rw [List.mem_singleton.1 hx]
      simp [oneCat]
  · intro x hx
    rcases List.mem_cons.1 hx with rfl | hx
    · exact k1.pdLabel _ (by simp)
    · rw [List.mem_singleton.1 hx]
      simp [oneCat]
  · intro x hx
    rcases List.mem_cons.1 hx with rfl | hx
    · exact k1.iou _ (by simp)
    · rw [List.mem_singleton.1 hx]
      exact fun _ _ => h
  · intro x hx
    rcases List.mem_cons.1 hx with rfl | hx
    · exact k3 _ (by simp)
    · rw [List.mem_singleton.1 hx]
      simp [oneCat]

/-- The hypotheses hold for one more cat that is found, or missed. -/
example : ∃ e e' e'' : Built, (OneMoreDet e e' (oneCat 1) ∧ HistoryOk e'.calls.flatten ∧ SizesOk (Loader.init.addAll e'.calls) ∧ DistinctLabels e'.calls.flatten ∧
      AllFound (oneCat 1) (1 / 2) (1 / 2) "cat" ∧ NoFalseAlarm (oneCat 1) (1 / 2) (1 / 2) "cat") ∧
    OneMoreDet e e'' (oneCat 0) ∧ HistoryOk e''.calls.flatten ∧ SizesOk (Loader.init.addAll e''.calls) ∧ DistinctLabels e''.calls.flatten ∧
      ∀ g, ¬ Hit (oneCat 0) (1 / 2) (1 / 2) "cat" g := by
  obtain ⟨e, he⟩ := built_exists [[tieDet]]
  obtain ⟨e', he'⟩ := built_exists [[tieDet, oneCat 1]]
  obtain ⟨e'', he''⟩ := built_exists [[tieDet], [oneCat 0]]
  have f' : e'.calls.flatten = [tieDet, oneCat 1] := by rw [he']; rfl
  have f'' : e''.calls.flatten = [tieDet, oneCat 0] := by rw [he'']; rfl
  have k := oneCat_ok (o := 1) (by norm_num)
  have k0 := oneCat_ok (o := 0) (by norm_num)
  refine ⟨e, e', e'', ⟨?_, f' ▸ k.1, ?_, f' ▸ k.2, oneCat_found⟩, ?_, f'' ▸ k0.1, ?_, f'' ▸ k0.2, oneCat_missed⟩
  · unfold OneMoreDet
    rw [he, he']
    exact List.Perm.swap _ _ _
  · rw [he']
    exact ⟨by decide +kernel, by decide +kernel, by decide +kernel, by decide +kernel⟩
  · unfold OneMoreDet
    rw [he, he'']
    exact List.Perm.swap _ _ _
  · rw [he'']
    exact ⟨by decide +kernel, by decide +kernel, by decide +kernel, by decide +kernel⟩

end Verif.Detection
