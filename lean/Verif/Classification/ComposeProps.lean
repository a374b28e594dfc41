import Verif.Classification.FilterProps

/-! # C94 for classification: filters compose -/

namespace Verif.Classification

/-- Both conditions. -/
def bothOf : Option Expr → Option Expr → Option Expr
  | none, e => e
  | some e, none => some e
  | some e, some f => some (fun r => e r && f r)

theorem holds_both (e f : Option Expr) (r : Row) : Holds (bothOf e f) r = (Holds e r && Holds f r) := by
  cases e <;> cases f <;> simp [bothOf, Holds]

/-- The claim: two filters, with any tables in between (the rows may be cut and ordered in any way), leave the rows that one filter with both
conditions leaves. -/
def Composes (d1 g1 p1 d2 g2 p2 : Option Expr) (tables : List (List Row)) : Prop :=
  ∀ t1 : List (List Row), t1.flatten.Perm (filterTables d1 g1 p1 tables).flatten →
    (filterTables d2 g2 p2 t1).flatten.Perm (filterTables (bothOf d1 d2) (bothOf g1 g2) (bothOf p1 p2) tables).flatten

/-- **C94 (classification, partial).** It holds when the conditions on ground truths and on predictions look at their side only. Missing: other
conditions, for which it is false (`C94_classification_violation`). -/
theorem C94_classification_partial {d1 g1 p1 d2 g2 p2 : Option Expr} {tables : List (List Row)} (hg1 : GtSided g1 tables.flatten)
    (hg2 : GtSided g2 tables.flatten) (hp1 : PdSided p1 tables.flatten) (hp2 : PdSided p2 tables.flatten) : Composes d1 g1 p1 d2 g2 p2 tables := by
  intro t1 h
  rw [C23_filter d1 g1 p1 tables hg1 hp1] at h
  have hs : ∀ r ∈ t1.flatten, r ∈ tables.flatten := fun r hr => (List.mem_filter.1 (h.mem_iff.1 hr)).1
  rw [C23_filter d2 g2 p2 t1 (fun a ha b hb => hg2 a (hs a ha) b (hs b hb)) (fun a ha b hb => hp2 a (hs a ha) b (hs b hb)),
    C23_filter _ _ _ tables (fun a ha b hb e1 e2 => by rw [holds_both, holds_both, hg1 a ha b hb e1 e2, hg2 a ha b hb e1 e2])
      (fun a ha b hb e1 e2 => by rw [holds_both, holds_both, hp1 a ha b hb e1 e2, hp2 a ha b hb e1 e2])]
  refine (h.filter _).trans (List.Perm.of_eq ?_)
  rw [List.filter_filter]
  apply List.filter_congr
  intro r _
  rw [holds_both, holds_both, holds_both]
  cases Holds d1 r <;> cases Holds d2 r <;> cases Holds g1 r <;> cases Holds g2 r <;> cases Holds p1 r <;> cases Holds p2 r <;> rfl

/-- A datum with a confident prediction and another one. -/
def twoLabels : List (List Row) := (Loader.init.addAll [[(⟨"d", "a", ["a", "b"], [9/10, 1/10], ""⟩ : Classif)]]).rows

/-- **C94 fails** for a condition on ground truths that looks at scores: keep the predictions of b, then the ground truths that have a score above
one half. One step with both keeps a row, two steps keep none. -/
theorem C94_classification_violation : ¬ Composes none none (some (fun r => decide (r.pdLabel = "b"))) none (some (fun r => decide (1 / 2 < r.score))) none
    twoLabels := by
  intro h
  have := (h _ (List.Perm.refl _)).length_eq
  revert this
  decide +kernel

example : GtSided (some (fun r => decide (r.gtLabel = "a"))) twoLabels.flatten ∧ GtSided none twoLabels.flatten ∧
    PdSided (some (fun r => decide (r.pdLabel = "b"))) twoLabels.flatten ∧ PdSided (some (fun r => decide (r.score < 1 / 2))) twoLabels.flatten ∧
    (filterTables none (some (fun r => decide (r.gtLabel = "a"))) (some (fun r => decide (r.pdLabel = "b"))) twoLabels).flatten.length = 1 := by
  unfold GtSided PdSided
  decide +kernel

end Verif.Classification
