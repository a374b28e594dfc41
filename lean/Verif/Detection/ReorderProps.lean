import Verif.Detection.ReorderLoader
import Verif.Detection.Agree

/-!
# C75: the order in which detections are added
-/

namespace Verif.Detection

open Verif.Cache (sortBy)

/-- The id of a label name in a loader. -/
def labelId (calls : List History) (v : String) : Int := ((Loader.init.addAll calls).labels.idxOf v : Nat)

theorem loader_rowOk {calls : List History} (hH : HistoryOk calls.flatten) (hS : SizesOk (Loader.init.addAll calls)) :
    ∀ r ∈ loaderRows calls, RowOk r := (loader_ok hH hS).1.form

theorem HistoryOk.perm {H H' : History} (h : HistoryOk H) (hp : H.Perm H') : HistoryOk H' :=
  ⟨fun x hx => h.gtLabel x (hp.mem_iff.2 hx), fun x hx => h.pdLabel x (hp.mem_iff.2 hx), fun x hx => h.iou x (hp.mem_iff.2 hx)⟩

section

variable {calls calls' : List History} (hp : calls.flatten.Perm calls'.flatten) (hH : HistoryOk calls.flatten)
  (hS : SizesOk (Loader.init.addAll calls)) (hS' : SizesOk (Loader.init.addAll calls'))
  {t1 t2 : List (List FRow)} (h1 : StoredSorted (Loader.init.addAll calls).rows t1) (h2 : StoredSorted (Loader.init.addAll calls').rows t2)

include hp hH hS hS' h1 h2

theorem reordered_all : ∃ f, Reordered f (loaderPieces calls) (loaderPieces calls') ∧
    (∀ v : String, ∀ r ∈ (loaderPieces calls).flatten,
      ((f r).gl = labelId calls' v ↔ r.gl = labelId calls v) ∧ ((f r).pl = labelId calls' v ↔ r.pl = labelId calls v)) ∧
    RowsOk (loaderPieces calls).flatten ∧ RowsOk (loaderPieces calls').flatten ∧
    Owned (loaderPieces calls).flatten ∧ Owned (loaderPieces calls').flatten ∧
    Divides (loaderPieces calls).flatten (rowsIn t1) ∧ Divides (loaderPieces calls').flatten (rowsIn t2) := by
  have hH' := hH.perm hp
  obtain ⟨f, hf, hl⟩ := loader_reordered hp (loader_rowOk hH hS) (loader_rowOk hH' hS')
  obtain ⟨k1, k2⟩ := loader_ok hH hS
  obtain ⟨k3, k4⟩ := loader_ok hH' hS'
  refine ⟨f, hf, hl, ?_⟩
  rw [loaderPieces_flatten, loaderPieces_flatten]
  exact ⟨k1, k3, k2, k4, loader_divides h1, loader_divides h2⟩

/-- **C75 (counts).** The same detections added in any two orders, in any calls, stored in any two ways: for every label and
all thresholds the numbers of ground truths, true positives, false positives and false negatives agree. -/
theorem C75_counts {out1 out2 : List RRow} (r1 : RankedOf (rowsIn t1) out1) (r2 : RankedOf (rowsIn t2) out2)
    {chunks1 chunks2 : List (List RRow)} (c1 : chunks1.flatten = out1) (c2 : chunks2.flatten = out2) (t s : Rat) (v : String) :
    gtCount (rowsIn t1) (labelId calls v) = gtCount (rowsIn t2) (labelId calls' v) ∧
    tpTotal t s chunks1 (labelId calls v) = tpTotal t s chunks2 (labelId calls' v) ∧
    fpTotal t s chunks1 (labelId calls v) = fpTotal t s chunks2 (labelId calls' v) ∧
    fnTotal t s (rowsIn t1) chunks1 (labelId calls v) = fnTotal t s (rowsIn t2) chunks2 (labelId calls' v) := by
  obtain ⟨f, hf, hl, k1, k2, _, _, d1, d2⟩ := reordered_all hp hH hS hS' h1 h2
  have hg := hf.gtCount k1 k2 d1 d2 (fun r hr => (hl v r hr).1)
  obtain ⟨ht, hfp⟩ := hf.tp_fp k1 k2 d1 d2 r1 r2 c1 c2 (fun r hr => (hl v r hr).2) t s
  refine ⟨hg.symm, ht.symm, hfp.symm, ?_⟩
  unfold fnTotal
  rw [hg, ht]

/-- **C75 (confusion matrix).** Its cells and the unmatched annotations of each label agree too. -/
theorem C75_confusion (t s : Rat) :
    (∀ g p : String, cmTotal (rowsIn t1) t s (labelId calls g) (labelId calls p) = cmTotal (rowsIn t2) t s (labelId calls' g) (labelId calls' p)) ∧
    (∀ v : String, unmatchedGtTotal (rowsIn t1) t s (labelId calls v) = unmatchedGtTotal (rowsIn t2) t s (labelId calls' v)) ∧
    (∀ v : String, unmatchedPdTotal (rowsIn t1) t s (labelId calls v) = unmatchedPdTotal (rowsIn t2) t s (labelId calls' v)) := by
  obtain ⟨f, hf, hl, _, _, k1, k2, d1, d2⟩ := reordered_all hp hH hS hS' h1 h2
  refine ⟨?_, ?_, ?_⟩
  · intro g p
    exact (hf.total k1 k2 d1 d2 (additive_cm t s _ _) (additive_cm t s _ _)
      (fun rows hr hren ho ho' => hren.cmCell ho ho' t s (fun r h => (hl g r (hr r h)).1) (fun r h => (hl p r (hr r h)).2))).symm
  · intro v
    exact (hf.total k1 k2 d1 d2 (additive_gt t s _) (additive_gt t s _)
      (fun rows hr hren ho ho' => hren.unmatchedGt ho ho' t s (fun r h => (hl v r (hr r h)).1))).symm
  · intro v
    exact (hf.total k1 k2 d1 d2 (additive_pd t s _) (additive_pd t s _)
      (fun rows hr hren ho ho' => hren.unmatchedPd ho ho' t s (fun r h => (hl v r (hr r h)).2))).symm

/-- **C75 (average precision), partial.** The precision-recall curve and the average precision agree when the predictions
`(v, score)` of different detections have different scores. Missing: equal scores, where it is false (`C75_ap_violation`). -/
theorem C75_ap_partial {out1 out2 : List RRow} (r1 : RankedOf (rowsIn t1) out1) (r2 : RankedOf (rowsIn t2) out2)
    {chunks1 chunks2 : List (List RRow)} (c1 : chunks1.flatten = out1) (c2 : chunks2.flatten = out2) (t : Rat) (v : String)
    (htie : ∀ (i j : Nat) (x y : Det × (Nat → Nat → Rat)), calls.flatten[i]? = some x → calls.flatten[j]? = some y → ∀ a ∈ x.1.pds, ∀ b ∈ y.1.pds, ∀ s,
      (v, s) ∈ a.labels.zip a.scores → (v, s) ∈ b.labels.zip b.scores → i = j) :
    (curveOf t (gtCount (rowsIn t1) (labelId calls v)) (labelId calls v) chunks1).prec
      = (curveOf t (gtCount (rowsIn t2) (labelId calls' v)) (labelId calls' v) chunks2).prec ∧
    (curveOf t (gtCount (rowsIn t1) (labelId calls v)) (labelId calls v) chunks1).score
      = (curveOf t (gtCount (rowsIn t2) (labelId calls' v)) (labelId calls' v) chunks2).score ∧
    averagePrecision (curveOf t (gtCount (rowsIn t1) (labelId calls v)) (labelId calls v) chunks1).prec
      = averagePrecision (curveOf t (gtCount (rowsIn t2) (labelId calls' v)) (labelId calls' v) chunks2).prec := by
  obtain ⟨f, hf, hl, k1, k2, _, _, d1, d2⟩ := reordered_all hp hH hS hS' h1 h2
  have hg := hf.gtCount k1 k2 d1 d2 (fun r hr => (hl v r hr).1)
  have hpd : ∀ x ∈ out1, x.row.pl = labelId calls v → ∃ (k : Nat) (d : Det × (Nat → Nat → Rat)), calls.flatten[k]? = some d ∧ x.row.datum = (k : Int) ∧
      ∃ a ∈ d.1.pds, (v, x.row.score) ∈ a.labels.zip a.scores := by
    intro x hx hpl
    obtain ⟨m1, m2, _⟩ := ranked_pd (divides_ok d1 k1) r1 hx
    have hm := (divides_mem d1 _).1 m1
    rw [loaderPieces_flatten] at hm
    obtain ⟨k, d, fr, hk, hfr, hrow⟩ := loaderRows_mem hm
    rw [← hrow] at hpl m2 ⊢
    rcases hfr.pd with ⟨e, _⟩ | ⟨p, a, l, hpa, hz, _, e2, e3⟩
    · omega
    · have hmem := (isRow_labels calls hk hfr).2 l e3
      have : l = v := by
        rw [e2] at hpl
        unfold labelId at hpl
        exact (idxOf_eq_iff hmem).1 hpl
      subst this
      exact ⟨k, d, hk, hfr.datum, a, List.mem_of_getElem? hpa, hz⟩
  have hT : NoTies (labelId calls v) out1 := by
    intro x hx y hy hxl hyl hs _
    obtain ⟨i, dx, hi, ex, a, ha, hza⟩ := hpd x hx hxl
    obtain ⟨j, dy, hj, ey, b, hb, hzb⟩ := hpd y hy hyl
    rw [ex, ey, htie i j dx dy hi hj a ha b hb _ hza (hs ▸ hzb)]
  obtain ⟨q1, q2⟩ := hf.curve k1 k2 d1 d2 r1 r2 c1 c2 (fun r hr => (hl v r hr).2) hT t (gtCount (rowsIn t1) (labelId calls v))
  rw [hg]
  exact ⟨q1.symm, q2.symm, by rw [q1]⟩

end

/-! ## Equal scores -/

/-- The full claim about average precision. -/
def ApIgnoresOrder : Prop := ∀ calls calls' : List History, calls.flatten.Perm calls'.flatten → HistoryOk calls.flatten →
  SizesOk (Loader.init.addAll calls) → SizesOk (Loader.init.addAll calls') → ∀ t1 t2, StoredSorted (Loader.init.addAll calls).rows t1 →
  StoredSorted (Loader.init.addAll calls').rows t2 → ∀ out1 out2, RankedOf (rowsIn t1) out1 → RankedOf (rowsIn t2) out2 → ∀ (t : Rat) (v : String),
  averagePrecision (curveOf t (gtCount (rowsIn t1) (labelId calls v)) (labelId calls v) [out1]).prec
    = averagePrecision (curveOf t (gtCount (rowsIn t2) (labelId calls' v)) (labelId calls' v) [out2]).prec

/-- An image whose `v` is found, and an image with a `w` that is taken for a `v` with the same score and IoU. -/
def found : Det × (Nat → Nat → Rat) := (⟨"A", [⟨"g", ["v"], [], ""⟩], [⟨"p", ["v"], [9 / 10], ""⟩], ""⟩, fun _ _ => 7 / 10)

@[inherit_doc found]
def mistaken : Det × (Nat → Nat → Rat) := (⟨"B", [⟨"h", ["w"], [], ""⟩], [⟨"q", ["v"], [9 / 10], ""⟩], ""⟩, fun _ _ => 7 / 10)

theorem found_ok : HistoryOk [found, mistaken] := by
  refine ⟨by simp [found, mistaken], by simp [found, mistaken], ?_⟩
  intro x hx p g
  rcases List.mem_pair.1 hx with rfl | rfl <;> simp only [found, mistaken] <;> constructor <;> norm_num

theorem found_sizes (a b : Det × (Nat → Nat → Rat)) (h : (a = found ∧ b = mistaken) ∨ (a = mistaken ∧ b = found)) :
    SizesOk (Loader.init.addAll [[a, b]]) := by
  rcases h with ⟨rfl, rfl⟩ | ⟨rfl, rfl⟩ <;>
    exact ⟨by decide +kernel, by decide +kernel, by decide +kernel, by decide +kernel⟩

/-- **C75 fails for average precision with equal scores.** The images are the same; added in one order the average precision of
`v` is 1, in the other 1/2. -/
theorem C75_ap_violation :
    (∃ t1 out1, StoredSorted (Loader.init.addAll [[found, mistaken]]).rows t1 ∧ RankedOf (rowsIn t1) out1 ∧
      averagePrecision (curveOf (1 / 2) (gtCount (rowsIn t1) (labelId [[found, mistaken]] "v")) (labelId [[found, mistaken]] "v") [out1]).prec = 1) ∧
    (∃ t2 out2, StoredSorted (Loader.init.addAll [[mistaken, found]]).rows t2 ∧ RankedOf (rowsIn t2) out2 ∧
      averagePrecision (curveOf (1 / 2) (gtCount (rowsIn t2) (labelId [[mistaken, found]] "v")) (labelId [[mistaken, found]] "v") [out2]).prec = 1 / 2) := by
  constructor
  · refine ⟨[(Loader.init.addAll [[found, mistaken]]).rows.flatten], _, ?_, rankedOf_mem _, ?_⟩
    · have := storedSorted_mem (Loader.init.addAll [[found, mistaken]]).rows
      have e : (Loader.init.addAll [[found, mistaken]]).rows.flatten = sortBy fKey (Loader.init.addAll [[found, mistaken]]).rows.flatten := by
        unfold sortBy
        rw [List.mergeSort_of_pairwise]
        decide +kernel
      rw [← e] at this
      exact this
    · rw [rankTable_sorted_rows (by decide +kernel)]
      decide +kernel
  · refine ⟨[(Loader.init.addAll [[mistaken, found]]).rows.flatten], _, ?_, rankedOf_mem _, ?_⟩
    · have := storedSorted_mem (Loader.init.addAll [[mistaken, found]]).rows
      have e : (Loader.init.addAll [[mistaken, found]]).rows.flatten = sortBy fKey (Loader.init.addAll [[mistaken, found]]).rows.flatten := by
        unfold sortBy
        rw [List.mergeSort_of_pairwise]
        decide +kernel
      rw [← e] at this
      exact this
    · rw [rankTable_sorted_rows (by decide +kernel)]
      decide +kernel

theorem C75_violation : ¬ ApIgnoresOrder := by
  intro h
  obtain ⟨⟨t1, out1, s1, r1, e1⟩, ⟨t2, out2, s2, r2, e2⟩⟩ := C75_ap_violation
  have := h [[found, mistaken]] [[mistaken, found]] (List.Perm.swap _ _ _) found_ok (found_sizes _ _ (Or.inl ⟨rfl, rfl⟩))
    (found_sizes _ _ (Or.inr ⟨rfl, rfl⟩)) t1 t2 s1 s2 out1 out2 r1 r2 (1 / 2) "v"
  rw [e1, e2] at this
  norm_num at this

/-! ## The hypotheses are met -/

/-- Two calls, and one call with the images in the other order; both loaders can be stored and ranked. -/
example : ∃ calls' : List History, sampleCalls.flatten.Perm calls'.flatten ∧ HistoryOk sampleCalls.flatten ∧
    SizesOk (Loader.init.addAll sampleCalls) ∧ SizesOk (Loader.init.addAll calls') ∧ calls' ≠ sampleCalls ∧
    (∃ t1 out1, StoredSorted (Loader.init.addAll sampleCalls).rows t1 ∧ RankedOf (rowsIn t1) out1) ∧
    (∃ t2 out2, StoredSorted (Loader.init.addAll calls').rows t2 ∧ RankedOf (rowsIn t2) out2) := by
  refine ⟨[sampleCalls.flatten.reverse], ?_, sampleCalls_ok.1, sampleCalls_ok.2.2,
    ⟨by decide +kernel, by decide +kernel, by decide +kernel, by decide +kernel⟩, ?_, ⟨_, _, storedSorted_mem _, rankedOf_mem _⟩,
    ⟨_, _, storedSorted_mem _, rankedOf_mem _⟩⟩
  · simp
  · intro h
    have := congrArg List.length h
    simp [sampleCalls] at this

/-- No ties in the sample: label `a` is predicted in both images with different scores. -/
example : ∀ (i j : Nat) (x y : Det × (Nat → Nat → Rat)), sampleCalls.flatten[i]? = some x → sampleCalls.flatten[j]? = some y → ∀ a ∈ x.1.pds, ∀ b ∈ y.1.pds, ∀ s,
    ("a", s) ∈ a.labels.zip a.scores → ("a", s) ∈ b.labels.zip b.scores → i = j := by
  intro i j x y hi hj a ha b hb s hza hzb
  rcases i with _ | _ | i <;> rcases j with _ | _ | j <;> simp [sampleCalls] at hi hj <;> subst hi <;> subst hj <;> simp at ha hb
  all_goals (try rfl)
  · rcases hb with rfl | rfl <;> subst ha <;> simp at hza hzb
    rw [hza] at hzb
    norm_num at hzb
  · rcases ha with rfl | rfl <;> subst hb <;> simp at hza hzb
    rw [hza] at hzb
    norm_num at hzb

end Verif.Detection
