import Verif.Classification.MetricsProps
import Verif.Classification.PairsProps
import Verif.Classification.FilterProps

/-! # C55, C56: info and datum filters of classification -/

namespace Verif.Classification

open Verif.Shared

theorem fragments_filter {frags : List (List Row)} {rows : List Row} (h : FragmentsOf frags rows) (p : Row → Bool) :
    FragmentsOf (frags.map (fun f => f.filter p)) (rows.filter p) := by
  constructor
  · have : (frags.map (fun f => f.filter p)).flatten = frags.flatten.filter p := by
      rw [List.filter_flatten]
    rw [this]
    exact h.perm.filter p
  · rw [List.pairwise_map]
    exact h.aligned.imp (fun hab x hx y hy => hab x (List.mem_of_mem_filter hx) y (List.mem_of_mem_filter hy))

/-- The rows written by `filter(datums=..)` are the rows that satisfy the expression. -/
theorem filter_datums (e : Expr) (tables : List (List Row)) :
    filterTables (some e) none none tables = tables.map (fun f => f.filter e) := by
  unfold filterTables
  apply List.map_congr_left
  intro t _
  simp [filterTable, readTable, sideMask]

/-- **C56 (classification, all but accuracy).** For every history of `add_data` calls, every datum-aligned division `frags` of its rows,
every expression `e`, and every datum-aligned division `frags'` of the rows that `filter(datums=e)` writes: the call with
`datums=e` on the evaluator and the call without it on the filtered evaluator succeed both or fail both, give the same counts,
precision, recall and F1 for each threshold and label, and the same confusion matrices. -/
theorem C56_classification_partial (calls : List (List Classif)) {frags frags' : List (List Row)}
    (hf : FragmentsOf frags (Loader.init.addAll calls).rows.flatten) (e : Expr)
    (hf' : FragmentsOf frags' (filterTables (some e) none none frags).flatten) (ts : List Rat) (hm : Bool) :
    let n := (Loader.init.addAll calls).labels.length
    (computePrecisionRecall frags ts hm n (some e)).map (fun ms => ms.map ThresholdMetrics.labels)
      = (computePrecisionRecall frags' ts hm n none).map (fun ms => ms.map ThresholdMetrics.labels) ∧
    evalCM (frags.map (readTable (some e))) ts hm n = evalCM frags' ts hm n := by
  intro n
  have hff := fragments_filter hf e
  have hr : InRange ((Loader.init.addAll calls).rows.flatten.filter e) n := fun r hr =>
    inRange_reach calls r (List.mem_of_mem_filter hr)
  have hf2 : FragmentsOf frags' ((Loader.init.addAll calls).rows.flatten.filter e) := by
    rw [filter_datums] at hf'
    exact ⟨hf'.perm.trans hff.perm, hf'.aligned⟩
  constructor
  · unfold computePrecisionRecall
    by_cases hts : ts.isEmpty = true
    · rw [if_pos hts, if_pos hts]
    · rw [if_neg hts, if_neg hts]
      dsimp only
      rw [evalCounts_eq hr hff, evalCounts_eq hr hf2]
      simp only [Option.map_some, List.map_map, Function.comp_def, toMetrics]
  · by_cases hts : ts = []
    · subst hts
      rfl
    · change evalCM (frags.map (fun f => f.filter e)) ts hm n = _
      rw [evalCM_eq hr hff hts, evalCM_eq hr hf2 hts]

/-- The full statement: also the accuracies agree. -/
def FilterCommutes : Prop :=
  ∀ (calls : List (List Classif)) (frags frags' : List (List Row)) (e : Expr) (ts : List Rat) (hm : Bool),
    FragmentsOf frags (Loader.init.addAll calls).rows.flatten → FragmentsOf frags' (filterTables (some e) none none frags).flatten →
    computePrecisionRecall frags ts hm (Loader.init.addAll calls).labels.length (some e)
      = computePrecisionRecall frags' ts hm (Loader.init.addAll calls).labels.length none

/-- **C56 is violated** by accuracy (the cause is C17). -/
theorem C56_classification_violation : ¬ FilterCommutes := by
  intro h
  let calls : List (List Classif) := [[⟨"d0", "a", ["a"], [1], ""⟩, ⟨"d1", "b", ["a"], [1], ""⟩]]
  have hal : (Loader.init.addAll calls).rows.Pairwise (fun a b => ∀ x ∈ a, ∀ y ∈ b, x.datum ≠ y.datum) := by decide +kernel
  have := h calls (Loader.init.addAll calls).rows _ (fun r => r.datum == 0) [0] true ⟨List.Perm.refl _, hal⟩
    ⟨List.Perm.refl _, by rw [filter_datums, List.pairwise_map]; exact hal.imp (fun hab x hx y hy =>
      hab x (List.mem_of_mem_filter hx) y (List.mem_of_mem_filter hy))⟩
  revert this
  decide +kernel

/-- **C55 (classification).** `get_info` without conditions counts the datums that were added, and with a condition that only looks at the
datum it counts those of the datums that satisfy it, for every history and every datum-aligned division of the rows. -/
theorem C55_classification (calls : List (List Classif)) (hv : ∀ c ∈ calls.flatten, c.valid = true) {frags : List (List Row)}
    (hf : FragmentsOf frags (Loader.init.addAll calls).rows.flatten) (q : Nat → Bool) :
    numberOfDatums frags = (history calls).length ∧
    numberOfDatums (frags.map (readTable (some (fun r => q r.datum.toNat))))
      = ((List.range (history calls).length).filter q).length := by
  refine ⟨numberOfDatums_reach calls hv hf, ?_⟩
  have h1 := numberOfDatums_eq (fragments_filter hf (fun r => q r.datum.toNat))
  change numberOfDatums (frags.map (fun f => f.filter (fun r => q r.datum.toNat))) = _
  rw [h1]
  have h2 : ∀ d : Int, d ∈ (Loader.init.addAll calls).rows.flatten.map Row.datum ↔ 0 ≤ d ∧ d.toNat < (history calls).length := by
    have hcov := covers_reach calls hv
    intro d
    rw [rows_reach calls]
    simp only [List.mem_map, List.mem_flatten]
    constructor
    · rintro ⟨r, ⟨_, ⟨⟨c, k⟩, hx, rfl⟩, hr⟩, rfl⟩
      obtain ⟨i, p, s, _, _, rfl⟩ := mem_rowsOf.1 hr
      have hk : k < (history calls).length := (List.getElem?_eq_some_iff.1 (List.mem_zipIdx_iff_getElem?.1 hx)).1
      exact ⟨Int.natCast_nonneg k, by simpa [rowOf] using hk⟩
    · rintro ⟨h0, hlt⟩
      have hc := hcov _ (List.getElem_mem hlt)
      have hpos : 0 < (history calls)[d.toNat].preds.length := List.length_pos_iff.2 hc.ne
      have hpos' : 0 < (history calls)[d.toNat].scores.length := by have := hc.valid; omega
      refine ⟨_, ⟨_, ⟨((history calls)[d.toNat], d.toNat), List.mem_zipIdx_iff_getElem?.2 (List.getElem?_eq_getElem hlt), rfl⟩,
        mem_rowsOf.2 ⟨0, _, _, List.getElem?_eq_getElem hpos, List.getElem?_eq_getElem hpos', rfl⟩⟩, ?_⟩
      simp only [rowOf]
      omega
  rw [← List.length_map (f := fun (k : Nat) => (k : Int)) (as := (List.range (history calls).length).filter q)]
  apply List.Perm.length_eq
  rw [List.perm_ext_iff_of_nodup (List.nodup_dedup _) (by
    apply List.Nodup.map_on _ (List.nodup_range.filter _)
    intro x _ y _ hxy
    exact_mod_cast hxy)]
  intro d
  rw [List.mem_dedup, List.mem_map, List.mem_map]
  constructor
  · rintro ⟨r, hr, rfl⟩
    obtain ⟨hr1, hr2⟩ := List.mem_filter.1 hr
    obtain ⟨g1, g2⟩ := (h2 r.datum).1 (List.mem_map_of_mem hr1)
    refine ⟨r.datum.toNat, List.mem_filter.2 ⟨List.mem_range.2 g2, hr2⟩, by omega⟩
  · rintro ⟨k, hk, rfl⟩
    obtain ⟨k1, k2⟩ := List.mem_filter.1 hk
    obtain ⟨r, hr, he⟩ := List.mem_map.1 ((h2 (k : Int)).2 ⟨by omega, by simpa using List.mem_range.1 k1⟩)
    refine ⟨r, List.mem_filter.2 ⟨hr, by rw [he]; simpa using k2⟩, he⟩

/-- Non-trivial instances: `sample` in its own tables, and the filter that keeps two of its three datums. -/
example : FragmentsOf (Loader.init.addAll sample).rows (Loader.init.addAll sample).rows.flatten :=
  ⟨List.Perm.refl _, by decide +kernel⟩
example : (∀ c ∈ sample.flatten, c.valid = true) ∧ (history sample).length = 3 ∧
    numberOfDatums ((Loader.init.addAll sample).rows.map (readTable (some (fun r => decide (r.datum.toNat ≠ 1))))) = 2 := by decide +kernel
example : FragmentsOf [((Loader.init.addAll sample).rows.map (fun f => f.filter (fun r => decide (r.datum ≠ 1)))).flatten]
    (filterTables (some (fun r => decide (r.datum ≠ 1))) none none (Loader.init.addAll sample).rows).flatten :=
  ⟨by rw [filter_datums]; simp, by simp⟩

end Verif.Classification
