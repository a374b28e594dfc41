import Verif.Detection.OnlyProps
import Verif.Detection.RenamedReport
import Verif.Detection.OperatingPoints

/-!
# C122 for precision-recall curves and average precision
-/

namespace Verif.Detection

open Verif.Cache (sortBy SortedBy StableOf sorted_stable_unique sortBy_sorted sortBy_stable)

theorem chosen_eq {a b : List Row} (ha : Tidy a) (hb : Tidy b) (hab : SameRows a b) (hba : SameRows b a) : chosen a = chosen b :=
  eq_of_keys (chosen_lt a) (chosen_lt b) (fun _ => (chosen_same ha hb hab hba).mem_iff)

/-- Rows of a label keep their order, if the datums do. -/
theorem Renames.chosen_label_all {f : Row → Row} {rows : List Row} (h : Renames f rows)
    (hd : ∀ x ∈ rows, ∀ y ∈ rows, x.datum < y.datum → (f x).datum < (f y).datum) {l l' : Int} (hl : ∀ r ∈ rows, (f r).pl = l' ↔ r.pl = l) :
    (chosen (rows.map f)).filter (fun r => decide (r.pl = l')) = ((chosen rows).filter (fun r => decide (r.pl = l))).map f := by
  apply eq_of_keys (key := Verif.Detection.pdKey)
  · exact (chosen_lt _).filter _
  · rw [List.pairwise_map]
    refine List.Pairwise.imp_of_mem ?_ ((chosen_lt rows).filter _)
    intro x y hx hy hxy
    rw [List.mem_filter, decide_eq_true_eq] at hx hy
    have hx1 := chosen_mem hx.1
    have hy1 := chosen_mem hy.1
    unfold Verif.Detection.pdKey at hxy ⊢
    rw [hx.2, hy.2] at hxy
    rcases List.cons_lt_cons_iff.1 hxy with h0 | ⟨hdd, h0⟩
    · exact List.cons_lt_cons_iff.2 (Or.inl (hd x hx1 y hy1 h0))
    · rcases List.cons_lt_cons_iff.1 h0 with h1 | ⟨_, h1⟩
      · rw [(h.datum x hx1 y hy1).2 hdd]
        exact List.cons_lt_cons_iff.2 (Or.inr ⟨rfl, List.cons_lt_cons_iff.2 (Or.inl (h.up x hx1 y hy1 hdd h1))⟩)
      · exact absurd h1 (lt_irrefl _)
  · intro r
    rw [List.mem_filter, h.mem_chosen, List.mem_map, List.mem_map, decide_eq_true_eq]
    constructor
    · rintro ⟨⟨x, hx, rfl⟩, hr⟩
      exact ⟨x, List.mem_filter.2 ⟨hx, decide_eq_true ((hl x (chosen_mem hx)).1 hr)⟩, rfl⟩
    · rintro ⟨x, hx, rfl⟩
      rw [List.mem_filter, decide_eq_true_eq] at hx
      exact ⟨⟨x, hx.1, rfl⟩, (hl x (chosen_mem hx.1)).2 hx.2⟩

theorem lexsort_map {f : Row → Row} (hf : ∀ r, rankKey (f r) = rankKey r) (l : List Row) : lexsort rankKey (l.map f) = (lexsort rankKey l).map f := by
  have hd : ∀ (k : List Rat) (l : List Row), l.filter (fun x => @decide _ (LinearOrder.toDecidableEq (rankKey x) k))
      = l.filter (fun x => decide (rankKey x = k)) := by
    intro k l
    apply List.filter_congr
    intro x _
    rw [Bool.eq_iff_iff]
    simp only [decide_eq_true_eq]
  apply sorted_stable_unique (key := rankKey)
  · exact lexsort_sorted _ _
  · have := lexsort_sorted rankKey l
    unfold SortedBy at this ⊢
    rw [List.pairwise_map]
    simp only [hf]
    exact this
  · intro k
    refine (hd k _).trans (Eq.trans ?_ (hd k _).symm)
    have e0 : ((fun x => decide (rankKey x = k)) ∘ f) = fun x => decide (rankKey x = k) := by
      funext x
      simp only [Function.comp_apply, hf]
    rw [lexsort_stable, List.filter_map, List.filter_map, e0, lexsort_stable]

/-- **C122 (curves).** The precision-recall curve of every label, its scores and the average precision of the filtered evaluator are those of an evaluator
of the selected datums and annotations, also with equal scores. Missing: predictions that list a label twice. -/
theorem C122_curve_partial (e e' : Built) (hH : HistoryOk e.calls.flatten) (hH' : HistoryOk e'.calls.flatten) (hS : SizesOk (Loader.init.addAll e.calls))
    (hS' : SizesOk (Loader.init.addAll e'.calls)) (hD : DistinctLabels e.calls.flatten) (q : Asks) {δ : Nat → Nat} {σ τ : Nat → Nat → Nat}
    (hP : Picks q e.calls.flatten e'.calls.flatten δ σ τ) {ft : List (List FRow)} (hf : StoredSorted (filterTables q.d q.g q.p e.tables) ft)
    {chunks : List (List RRow)} (hr : RankedOf (rowsIn ft) chunks.flatten) (t : Rat) (v : String) :
    (curveOf t (gtCount (rowsIn ft) (labelId e.calls v)) (labelId e.calls v) chunks).prec = (curveOf t (e'.gt v) (labelId e'.calls v) e'.chunks).prec ∧
    (curveOf t (gtCount (rowsIn ft) (labelId e.calls v)) (labelId e.calls v) chunks).score = (curveOf t (e'.gt v) (labelId e'.calls v) e'.chunks).score ∧
    averagePrecision (curveOf t (gtCount (rowsIn ft) (labelId e.calls v)) (labelId e.calls v) chunks).prec = e'.ap t v := by
  have hD' := hP.distinct hD hH hH'
  obtain ⟨htidy, hok⟩ := filtered_tidy e.stored hH hD hS q
  have hR := back_renames hP hH hH' hS hS'
  have hbt := back_tidy hP hH hH' hS hS' hD'
  have hok' := (loader_ok hH' hS').1
  have hpl := fun r hr => (back_label hP hH hH' v (r := r) hr).2
  have d1 := filtered_divides e.stored q hf
  have d2 := loader_divides e'.stored
  have hup : ∀ x ∈ loaderRows e'.calls, ∀ y ∈ loaderRows e'.calls, x.datum < y.datum →
      (backOf e.calls e'.calls δ σ τ x).datum < (backOf e.calls e'.calls δ σ τ y).datum := by
    intro x hx y hy hxy
    obtain ⟨i, _, _, hi, _, _, e1, e2, _, _⟩ := back_row hP hH hH' hx
    obtain ⟨j, _, _, hj, _, _, f1, f2, _, _⟩ := back_row hP hH hH' hy
    rw [e1, f1] at hxy
    rw [e2, f2]
    have := hP.up i j (by exact_mod_cast hxy) (getElem?_lt hj)
    exact_mod_cast this
  have hseq : (chunks.flatten.map RRow.row).filter (fun r => decide (r.pl = labelId e.calls v)) =
      ((e'.chunks.flatten.map RRow.row).filter (fun r => decide (r.pl = labelId e'.calls v))).map (backOf e.calls e'.calls δ σ τ) := by
    rw [ranked_canonical d1 hok hr, ranked_canonical d2 hok' e'.ranked, lexsort_filter, lexsort_filter, ← lexsort_map hR.key,
      chosen_eq htidy hbt (filtered_to hP hH hH' e.stored hD) (filtered_of hP hH hH' e.stored hD), hR.chosen_label_all hup hpl]
  have f1 := label_first (labelId e.calls v) (outer_first (divides_ok d1 hok) hr t)
  have f2 := label_first (labelId e'.calls v) (outer_first (divides_ok d2 hok') e'.ranked t)
  have hfm : ∀ (out : List RRow) (l : Int), (out.map RRow.row).filter (fun r => decide (r.pl = l))
      = (out.filter (fun r => decide (r.row.pl = l))).map RRow.row := by
    intro out l
    rw [List.filter_map]
    rfl
  rw [hfm, hfm] at hseq
  have hpar := parallel_of_rows (t := t) hR (fun r hr => mem_out d2 hok' e'.ranked (List.mem_filter.1 hr).1) f2 f1 hseq
  have hg := (C122_counts_partial e e' hH hH' hS hS' hD q hP hf hr t 0 v).1
  rw [hg]
  have hpt := parallel_points hpar (e'.gt v) 0 0
  have hpr : (curveOf t (e'.gt v) (labelId e.calls v) chunks).prec = (curveOf t (e'.gt v) (labelId e'.calls v) e'.chunks).prec := by
    rw [curve_prec, curve_prec, hpt]
  refine ⟨hpr, ?_, by rw [hpr]; rfl⟩
  unfold curveOf
  rw [curve_score t _ (labelId e.calls v) chunks _ (ranked_scores hr), curve_score t _ (labelId e'.calls v) e'.chunks _ (ranked_scores e'.ranked)]
  show topScore _ (points t _ 0 0 _).1 = topScore _ (points t _ 0 0 _).1
  rw [hpt]

/-- **C122 (curves of evaluators).** As before, for an evaluator to which only the selected datums and annotations were added, in any calls. -/
theorem C122_only_curve_partial (e e' : Built) (hH : HistoryOk e.calls.flatten) (hS : SizesOk (Loader.init.addAll e.calls))
    (hS' : SizesOk (Loader.init.addAll e'.calls)) (hD : DistinctLabels e.calls.flatten) (q : Asks) (he : e'.calls.flatten = q.dataset e.calls.flatten)
    {ft : List (List FRow)} (hf : StoredSorted (filterTables q.d q.g q.p e.tables) ft) {chunks : List (List RRow)}
    (hr : RankedOf (rowsIn ft) chunks.flatten) (t : Rat) (v : String) :
    (curveOf t (gtCount (rowsIn ft) (labelId e.calls v)) (labelId e.calls v) chunks).prec = (curveOf t (e'.gt v) (labelId e'.calls v) e'.chunks).prec ∧
    (curveOf t (gtCount (rowsIn ft) (labelId e.calls v)) (labelId e.calls v) chunks).score = (curveOf t (e'.gt v) (labelId e'.calls v) e'.chunks).score ∧
    averagePrecision (curveOf t (gtCount (rowsIn ft) (labelId e.calls v)) (labelId e.calls v) chunks).prec = e'.ap t v := by
  obtain ⟨δ, σ, τ, hP⟩ := picks_dataset q e.calls.flatten
  rw [← he] at hP
  exact C122_curve_partial e e' hH (by rw [he]; exact dataset_ok q hH) hS hS' hD q hP hf hr t v

end Verif.Detection
