import Verif.Classification.OnlyRoc
import Verif.Classification.OneSidedProps

/-! # C124: the mean ROC area of a filtered classification evaluator (`classification/evaluator.py` 404-522, 524-567) -/

namespace Verif.Classification

open Verif.Shared

/-- The number of ground truths of a label that the filtered evaluator counts is the number of selected classifications with it. -/
theorem only_gtCount (e : Built) (q : Pick) {d g p : Option Expr} (hq : q.Asked d g p) (hnd : ∀ c ∈ history e.calls, c.preds.Nodup)
    {frags : List (List Row)} (hf : FragmentsOf frags (filterTables d g p e.frags).flatten) (l : String) :
    gtCount frags (e.labels.idxOf l) = (q.only (history e.calls)).countP (fun c => decide (c.gt = l)) := by
  have hcov := covers_reach e.calls e.valid
  have hp := filtered_rows e q hq hnd
  set R := ((history e.calls).zipIdx.map (fun x => rowsOf e.labels x.2 x.1)).flatten.filter q.rowOk with hR
  set xs := (history e.calls).zipIdx with hxs
  set K := ((q.kept xs).map (fun x => rowsOf e.labels x.2 x.1)).flatten with hK
  have hf' : FragmentsOf frags R := ⟨hf.perm.trans hp, hf.aligned⟩
  have hmem : ∀ x ∈ xs, x.1 ∈ history e.calls := by
    rintro ⟨c, k⟩ hx
    exact List.mem_of_getElem? (by simpa using List.mem_zipIdx_iff_getElem?.1 hx)
  have hfst : xs.map Prod.fst = history e.calls := List.zipIdx_map_fst 0 _
  have hsnd : (xs.map Prod.snd).Nodup := by
    rw [hxs, List.zipIdx_map_snd 0 _]
    exact List.nodup_range'
  have hkc : ∀ x ∈ q.kept xs, Covers e.labels x.1 := pick_covers (fun x hx => hcov _ (hmem x hx))
  have hks := pick_snd q xs hsnd
  have hkf : (q.kept xs).map Prod.fst = q.only (history e.calls) := by rw [pick_fst, hfst]
  have hu : R.map unflag = K.map unflag := blocks_unflag q e.labels xs
  rw [gtCount_eq hf', ← dc_map (m := fun r => decide (r.gt ≥ 0)) (m' := fun r => decide (r.gt ≥ 0)) (fun _ => rfl) (fun _ _ => rfl), hu,
    dc_map (m := fun r => decide (r.gt ≥ 0)) (fun _ => rfl) (fun _ _ => rfl), dc_gt_only (q.kept xs) hks hkc, hkf]

theorem sum_left {L L' : List String} (hd : L.Nodup) (hd' : L'.Nodup) (hsub : ∀ v ∈ L', v ∈ L) {f : String → Rat}
    (h0 : ∀ v, v ∉ L' → f v = 0) : (L.map f).sum = (L'.map f).sum := by
  have h1 : (L.filter (fun v => decide (v ∈ L'))).Perm L' := by
    refine (List.perm_ext_iff_of_nodup (hd.filter _) hd').2 ?_
    intro v
    rw [List.mem_filter, decide_eq_true_eq]
    exact ⟨fun h => h.2, fun h => ⟨hsub v h, h⟩⟩
  rw [← (h1.map f).sum_eq]
  clear h1 hd hsub
  induction L with
  | nil => rfl
  | cons v L ih =>
    rw [List.map_cons, List.sum_cons, ih, List.filter_cons]
    by_cases hv : v ∈ L'
    · rw [if_pos (by simpa using hv), List.map_cons, List.sum_cons]
    · rw [if_neg (by simpa using hv), h0 v hv, zero_add]

theorem mean_mul (frags : List (List Row)) (chunks : List (List RocRow)) {L : List String} (hnd : L.Nodup) :
    meanRocauc frags chunks L.length * L.length = (L.map (fun v => rocauc frags chunks (L.idxOf v))).sum := by
  unfold meanRocauc
  rw [map_range_labels hnd (rocauc frags chunks) (fun v => rocauc frags chunks (L.idxOf v)) (fun _ _ => rfl)]
  by_cases h : L.length = 0
  · rw [List.length_eq_zero_iff.1 h]
    simp
  · exact div_mul_cancel₀ _ (by exact_mod_cast h)

/-- **C124 (classification), partial.** A classification evaluator is filtered so that the selected classifications still score their ground
truths. The areas of the labels, summed over the labels, are the same as those of an evaluator of the selected classifications; the
filtered evaluator divides the sum by the number of labels of the original. So the mean areas agree if every label is still used. Missing:
conditions under which labels are lost (`C124_classification_violation`) and the cases of C21, C22 and C109. -/
theorem C124_classification_partial (e e' : Built) (q : Pick) {d g p : Option Expr} (hs : (history e'.calls).Perm (q.only (history e.calls)))
    (hq : q.Asked d g p) (hnd : ∀ c ∈ history e.calls, c.preds.Nodup) {frags : List (List Row)}
    (hf : FragmentsOf frags (filterTables d g p e.frags).flatten) {tables : List (List IRow)} (hperm : tables.flatten.Perm (frags.flatten.map irow))
    (hsort : tables.flatten.Pairwise (fun a b => b.score ≤ a.score)) {chunks : List (List RocRow)}
    (hchunks : chunks.flatten = rocCurve (List.range e.labels.length) e.labels.length tables)
    (hcut : ∀ l ∈ e'.labels, NoCut (e.labels.idxOf l) chunks) {frags' : List (List Row)} {chunks' : List (List RocRow)}
    (hr : ∀ l ∈ e'.labels, ∃ r : RocRun e'.calls l, r.frags = frags' ∧ r.chunks = chunks') (hl : ∀ c ∈ history e'.calls, c.gt ∈ c.preds) :
    meanRocauc frags chunks e.labels.length * e.labels.length = meanRocauc frags' chunks' e'.labels.length * e'.labels.length ∧
    ((∀ l ∈ e.labels, l ∈ e'.labels) → meanRocauc frags chunks e.labels.length = meanRocauc frags' chunks' e'.labels.length) := by
  have hcov := covers_reach e.calls e.valid
  have hcov' := covers_reach e'.calls e'.valid
  have hN : e.labels.Nodup := (linv_reach e.calls).nodup
  have hN' : e'.labels.Nodup := (linv_reach e'.calls).nodup
  have hsub : ∀ v ∈ e'.labels, v ∈ e.labels := by
    intro v hv
    obtain ⟨c, hc, hu⟩ := (linv_reach e'.calls).onlyUsed v hv
    have := only_covers hcov c (hs.mem_iff.1 hc)
    rcases hu with hu | hu
    · rw [hu]; exact this.gt
    · exact this.preds v hu
  have harea : ∀ v ∈ e'.labels, rocauc frags chunks (e.labels.idxOf v) = rocauc frags' chunks' (e'.labels.idxOf v) := by
    intro v hv
    obtain ⟨r, h1, h2⟩ := hr v hv
    rw [C123_rocauc_partial e e' q hs hq hnd hf hperm hsort hchunks (hcut v hv) r (fun c hc h => h ▸ hl c hc)]
    unfold RocRun.area
    rw [h1, h2]
    rfl
  have hlost : ∀ v, v ∉ e'.labels → rocauc frags chunks (e.labels.idxOf v) = 0 := by
    intro v hv
    refine rocauc_zero _ _ _ (Or.inr ?_)
    rw [only_gtCount e q hq hnd hf, ← hs.countP_eq, List.countP_eq_zero]
    intro c hc h
    rw [decide_eq_true_eq] at h
    exact hv (h ▸ (hcov' c hc).gt)
  have key : meanRocauc frags chunks e.labels.length * e.labels.length = meanRocauc frags' chunks' e'.labels.length * e'.labels.length := by
    rw [mean_mul frags chunks hN, mean_mul frags' chunks' hN', sum_left hN hN' hsub hlost]
    exact congrArg _ (List.map_congr_left harea)
  refine ⟨key, fun hall => ?_⟩
  have hlen : e.labels.length = e'.labels.length :=
    ((List.perm_ext_iff_of_nodup hN hN').2 (fun v => ⟨hall v, hsub v⟩)).length_eq
  rw [← hlen] at key ⊢
  by_cases h0 : e.labels.length = 0
  · unfold meanRocauc
    rw [h0]
    simp
  · exact mul_right_cancel₀ (by exact_mod_cast h0) key

/-- Two datums of the labels `a` and `b` and a third of the label `x`, all of them right. -/
def rightThree (x : String) : List (List Classif) :=
  [[⟨"d", "a", ["a", "b"], [9/10, 1/10], ""⟩, ⟨"e", "b", ["a", "b"], [2/10, 8/10], ""⟩], [⟨"f", x, [x], [7/10], ""⟩]]

theorem rightThree_valid (x : String) : ∀ c ∈ (rightThree x).flatten, c.valid = true := by
  intro c hc
  simp only [rightThree, List.flatten_cons, List.flatten_nil, List.append_nil, List.cons_append, List.nil_append, List.mem_cons, List.not_mem_nil,
    or_false] at hc
  rcases hc with rfl | rfl | rfl <;> rfl

/-- The first two of them. -/
def rightTwo : List (List Classif) := [[⟨"d", "a", ["a", "b"], [9/10, 1/10], ""⟩, ⟨"e", "b", ["a", "b"], [2/10, 8/10], ""⟩]]

/-- Everything but the datum `f`. -/
def pickTwo : Pick := ⟨fun u _ => decide (u ≠ "f"), fun _ => true, fun _ _ => true⟩

/-- The condition on datums. -/
def datumTwo : Option Expr := some (fun r => decide (r.uid ≠ "f"))

/-- The sorted intermediates of the first two datums. -/
def sortedTwo : List (List IRow) := [[⟨0, 9/10, true⟩, ⟨1, 8/10, true⟩, ⟨0, 2/10, false⟩, ⟨1, 1/10, false⟩]]

theorem noCut_one (k : Nat) (c : List RocRow) : NoCut k [c] := by
  intro a b hab hb
  rcases a with _ | ⟨x, a⟩
  · simp
  · simp only [List.cons_append, List.cons.injEq] at hab
    have := hab.2.symm
    rw [List.append_eq_nil_iff] at this
    exact absurd this.2 hb

theorem runsTwo : ∀ l ∈ (oneTable rightTwo (by decide +kernel)).labels, ∃ r : RocRun (oneTable rightTwo (by decide +kernel)).calls l,
    r.frags = [(Loader.init.addAll rightTwo).rows.flatten] ∧
    r.chunks = [rocCurve (List.range (Loader.init.addAll rightTwo).labels.length) (Loader.init.addAll rightTwo).labels.length
      [((Loader.init.addAll rightTwo).rows.flatten.map irow).insertionSort (fun a b => b.score ≤ a.score)]] := by
  have h : (oneTable rightTwo (by decide +kernel)).labels = ["a", "b"] := by decide +kernel
  intro l hl
  rw [h] at hl
  rcases List.mem_cons.1 hl with rfl | hl
  · exact ⟨oneRun rightTwo "a" (by decide +kernel) (9 / 10) (by decide +kernel) (by norm_num) (by decide +kernel), rfl, rfl⟩
  · rw [List.mem_singleton.1 hl]
    exact ⟨oneRun rightTwo "b" (by decide +kernel) (8 / 10) (by decide +kernel) (by norm_num) (by decide +kernel), rfl, rfl⟩

/-- The hypotheses of `C124_classification_partial` hold for these datums, with a third datum of the label `a` or of a label that is lost. -/
example (x : String) (hx : x = "a" ∨ x = "c") : ∃ (e e' : Built) (frags : List (List Row)) (tables : List (List IRow))
    (chunks chunks' : List (List RocRow)) (frags' : List (List Row)), e.calls = rightThree x ∧
    (history e'.calls).Perm (pickTwo.only (history e.calls)) ∧ pickTwo.Asked datumTwo none none ∧ (∀ c ∈ history e.calls, c.preds.Nodup) ∧
    FragmentsOf frags (filterTables datumTwo none none e.frags).flatten ∧ tables.flatten.Perm (frags.flatten.map irow) ∧
    tables.flatten.Pairwise (fun a b => b.score ≤ a.score) ∧ chunks.flatten = rocCurve (List.range e.labels.length) e.labels.length tables ∧
    (∀ l ∈ e'.labels, NoCut (e.labels.idxOf l) chunks) ∧
    (∀ l ∈ e'.labels, ∃ r : RocRun e'.calls l, r.frags = frags' ∧ r.chunks = chunks') ∧ (∀ c ∈ history e'.calls, c.gt ∈ c.preds) ∧
    ((∀ l ∈ e.labels, l ∈ e'.labels) ↔ x = "a") ∧ meanRocauc frags' chunks' e'.labels.length = 1 := by
  refine ⟨oneTable (rightThree x) (rightThree_valid x), oneTable rightTwo (by decide +kernel),
    filterTables datumTwo none none [(Loader.init.addAll (rightThree x)).rows.flatten], sortedTwo, [_], _, _, rfl, ?_,
    ⟨fun _ => rfl, fun _ => rfl, fun _ => rfl⟩, ?_, ⟨.refl _, List.pairwise_singleton _ _⟩, ?_, by decide +kernel, List.flatten_singleton,
    fun _ _ => noCut_one _ _, runsTwo, by decide +kernel, ?_, by decide +kernel⟩
  all_goals rcases hx with rfl | rfl <;> decide +kernel

/-- The claim without further hypotheses. -/
def SameMeanArea : Prop :=
  ∀ (e e' : Built) (q : Pick) (d g p : Option Expr) (frags frags' : List (List Row)) (tables : List (List IRow))
    (chunks chunks' : List (List RocRow)), (history e'.calls).Perm (q.only (history e.calls)) → q.Asked d g p →
    (∀ c ∈ history e.calls, c.preds.Nodup) → FragmentsOf frags (filterTables d g p e.frags).flatten →
    tables.flatten.Perm (frags.flatten.map irow) → tables.flatten.Pairwise (fun a b => b.score ≤ a.score) →
    chunks.flatten = rocCurve (List.range e.labels.length) e.labels.length tables →
    (∀ l ∈ e'.labels, NoCut (e.labels.idxOf l) chunks) →
    (∀ l ∈ e'.labels, ∃ r : RocRun e'.calls l, r.frags = frags' ∧ r.chunks = chunks') → (∀ c ∈ history e'.calls, c.gt ∈ c.preds) →
    meanRocauc frags chunks e.labels.length = meanRocauc frags' chunks' e'.labels.length

/-- **C124 (classification), violation.** Two right datums are selected and the label of the third is lost: the mean area is 2/3, of an
evaluator of the two datums 1. -/
theorem C124_classification_violation : ¬ SameMeanArea := by
  intro h
  have h1 := h (oneTable (rightThree "c") (by decide +kernel)) (oneTable rightTwo (by decide +kernel)) pickTwo datumTwo none none
    (filterTables datumTwo none none [(Loader.init.addAll (rightThree "c")).rows.flatten]) _ sortedTwo
    [rocCurve (List.range (oneTable (rightThree "c") (by decide +kernel)).labels.length) (oneTable (rightThree "c") (by decide +kernel)).labels.length
      sortedTwo] _ (by decide +kernel) ⟨fun _ => rfl, fun _ => rfl, fun _ => rfl⟩ (by decide +kernel)
    ⟨.refl _, List.pairwise_singleton _ _⟩ (by decide +kernel) (by decide +kernel) List.flatten_singleton (fun _ _ => noCut_one _ _) runsTwo
    (by decide +kernel)
  revert h1
  decide +kernel

end Verif.Classification
