import Verif.Classification.ComposeProps
import Verif.Classification.MetricsProps

/-!
# C97 for classification: `get_info` with a condition previews `filter` with the same condition
-/

namespace Verif.Classification

/-- `EvaluatorInfo` (`shared.py` 11-16) without the metadata fields, which are copied. -/
structure Info where
  rows : Nat
  datums : Nat
  labels : Nat
deriving DecidableEq, Repr

/-- `Evaluator.get_info` (`evaluator.py` 338-350), which takes a condition on datums only; `extract_counts` (`shared.py` 134-141). -/
def EvalState.getInfo (e : EvalState) (d : Option Expr) : Info :=
  ⟨e.tables.flatten.length, numberOfDatums (e.tables.map (readTable d)), e.labels.length⟩

/-- The evaluator that `filter` returns (`evaluator.py` 404-497): its cache holds the rows written, in any order and cut anywhere between datums,
and the labels are those of the evaluator that is filtered (`index_to_label_override`). -/
structure IsFiltered (e : EvalState) (d g p : Option Expr) (e' : EvalState) : Prop where
  tables : FragmentsOf e'.tables (filterTables d g p e.tables).flatten
  labels : e'.labels = e.labels

theorem readTable_holds (d : Option Expr) (t : List Row) : readTable d t = t.filter (Holds d) := by
  cases d with
  | none => exact (List.filter_eq_self.2 (fun _ _ => rfl)).symm
  | some e => rfl

/-- Reading with a condition keeps the cut between datums. -/
theorem read_fragments {frags : List (List Row)} {rows : List Row} (h : FragmentsOf frags rows) (d : Option Expr) :
    FragmentsOf (frags.map (readTable d)) (rows.filter (Holds d)) := by
  have e : (frags.map (readTable d)).flatten = frags.flatten.filter (Holds d) := by
    clear h
    induction frags with
    | nil => rfl
    | cons a l ih => rw [List.map_cons, List.flatten_cons, List.flatten_cons, List.filter_append, ih, readTable_holds]
  refine ⟨e ▸ h.perm.filter _, ?_⟩
  rw [List.pairwise_map]
  refine h.aligned.imp (fun {a b} hab x hx y hy => ?_)
  rw [readTable_holds] at hx hy
  exact hab x (List.mem_filter.1 hx).1 y (List.mem_filter.1 hy).1

/-- **C97 (classification, partial).** `get_info` with a condition on datums gives the numbers of datums and labels that the evaluator returned by
`filter` with the same condition reports, for every layout of the two caches; conditions on ground truths or predictions can only lower the number
of datums. Missing: the number of rows (`C97_classification_rows_violation`). -/
theorem C97_classification_partial {calls : List (List Classif)} {e e' : EvalState} (h : FragmentsOf e.tables (Loader.init.addAll calls).rows.flatten)
    (d g p : Option Expr) (hf : IsFiltered e d g p e') :
    (e'.getInfo none).labels = (e.getInfo d).labels ∧ (e'.getInfo none).datums ≤ (e.getInfo d).datums ∧
    (g = none → p = none → (e'.getInfo none).datums = (e.getInfo d).datums) := by
  have h1 : (e.getInfo d).datums = (((Loader.init.addAll calls).rows.flatten.filter (Holds d)).map Row.datum).dedup.length :=
    numberOfDatums_eq (read_fragments h d)
  have h2 : (e'.getInfo none).datums = (((filterTables d g p e.tables).flatten.filter (Holds none)).map Row.datum).dedup.length :=
    numberOfDatums_eq (read_fragments hf.tables none)
  have hn : ∀ l : List Row, l.filter (Holds none) = l := fun l => List.filter_eq_self.2 (fun _ _ => rfl)
  rw [hn] at h2
  refine ⟨congrArg List.length hf.labels, ?_, ?_⟩
  · rw [h1, h2]
    apply List.Subperm.length_le
    apply List.subperm_of_subset (List.nodup_dedup _)
    intro z hz
    rw [List.mem_dedup, List.mem_map] at hz ⊢
    obtain ⟨x, hx, rfl⟩ := hz
    refine ⟨x, List.mem_filter.2 ?_, rfl⟩
    obtain ⟨t, ht, hx⟩ := List.mem_flatten.1 hx
    obtain ⟨i, hi, rfl⟩ := List.getElem_of_mem ht
    have hg := C23_filter_general d g p e.tables
    have hi' : i < e.tables.length := by rw [← hg.length_eq]; exact hi
    obtain ⟨hs, hm⟩ := hg.get hi hi'
    have hxs := hs.subset hx
    exact ⟨h.perm.mem_iff.1 (List.mem_flatten.2 ⟨_, List.getElem_mem hi', hxs⟩), ((hm x hxs).1 hx).1⟩
  · rintro rfl rfl
    have e0 := C23_filter d none none e.tables (fun _ _ _ _ _ _ => rfl) (fun _ _ _ _ _ _ => rfl)
    rw [h1, h2, e0]
    refine (((h.perm.filter _).map Row.datum).dedup).length_eq.symm ▸ ?_
    congr 3
    apply List.filter_congr
    intro r _
    simp [Holds]

/-- Two datums. -/
def keptAndLost : List (List Classif) := [[⟨"d", "a", ["a", "b"], [9/10, 1/10], ""⟩, ⟨"e", "b", ["a", "b"], [9/10, 1/10], ""⟩]]

/-- The first datum. -/
def firstOnly : Option Expr := some (fun r => decide (r.datum = 0))

/-- An evaluator for the two datums. -/
def keptState : EvalState := ⟨[(Loader.init.addAll keptAndLost).rows.flatten], [], [(0, "a"), (1, "b")]⟩

theorem keptState_stored : FragmentsOf keptState.tables (Loader.init.addAll keptAndLost).rows.flatten :=
  ⟨List.Perm.of_eq (by simp [keptState]), List.pairwise_singleton _ _⟩

theorem keptState_filtered : IsFiltered keptState firstOnly none none ⟨filterTables firstOnly none none keptState.tables, [], [(0, "a"), (1, "b")]⟩ :=
  ⟨⟨.refl _, List.pairwise_singleton _ _⟩, rfl⟩

/-- **C97 (classification, rows), violation.** The number of rows of `get_info` does not follow the condition: 4 rows are announced, 2 are left. -/
theorem C97_classification_rows_violation : ∃ e e' : EvalState, FragmentsOf e.tables (Loader.init.addAll keptAndLost).rows.flatten ∧
    IsFiltered e firstOnly none none e' ∧ (e.getInfo firstOnly).rows = 4 ∧ (e'.getInfo none).rows = 2 :=
  ⟨_, _, keptState_stored, keptState_filtered, by decide +kernel, by decide +kernel⟩

/-- The hypotheses of `C97_classification_partial` hold for a condition that removes a datum. -/
example : FragmentsOf keptState.tables (Loader.init.addAll keptAndLost).rows.flatten ∧
    IsFiltered keptState firstOnly none none ⟨filterTables firstOnly none none keptState.tables, [], [(0, "a"), (1, "b")]⟩ ∧
    (keptState.getInfo firstOnly).datums = 1 ∧ (keptState.getInfo none).datums = 2 :=
  ⟨keptState_stored, keptState_filtered, by decide +kernel, by decide +kernel⟩

end Verif.Classification
