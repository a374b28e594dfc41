import Verif.Classification.LoaderLemmas

/-!
C99: a classification without predictions. `add_data` raises if and only if there is one, and leaves the
loader of a call with the classifications before the first such classification; neither the ground truth
of the refused classification nor anything after it is in the loader.
-/

namespace Verif.Classification

/-- C99: `add_data` raises exactly for the lists that hold a classification without predictions. -/
theorem C99_classification_raises (s : Loader) (cs : List Classif) : (s.addData cs).2 = true ↔ ∃ c ∈ cs, c.preds = [] := by
  induction cs generalizing s with
  | nil => simp [Loader.addData]
  | cons c cs ih =>
    by_cases h : c.preds = []
    · simp [Loader.addData, Loader.addOne, h]
    · have : c.preds.length ≠ 0 := fun h0 => h (List.length_eq_zero_iff.1 h0)
      simp only [Loader.addData, Loader.addOne, if_neg this, List.mem_cons, exists_eq_or_imp, h, false_or]
      exact ih _

/-- C99: what is in the loader after `add_data` raised is what a call with the classifications before the
first one without predictions puts there; that call does not raise. -/
theorem C99_classification_refused (s : Loader) (pre post : List Classif) (c : Classif) (hc : c.preds = [])
    (hpre : ∀ d ∈ pre, d.preds ≠ []) :
    s.addData (pre ++ c :: post) = ((s.addData pre).1, true) ∧ (s.addData pre).2 = false ∧
      (s.addData pre).1.datumCount = s.datumCount + pre.length := by
  induction pre generalizing s with
  | nil => simp [Loader.addData, Loader.addOne, hc]
  | cons d pre ih =>
    have : d.preds.length ≠ 0 := fun h0 => hpre d (by simp) (List.length_eq_zero_iff.1 h0)
    simp only [List.cons_append, Loader.addData, Loader.addOne, if_neg this]
    obtain ⟨a, b, e⟩ := ih _ (fun x hx => hpre x (List.mem_cons_of_mem _ hx))
    exact ⟨a, b, by rw [e]; simp only [List.length_cons]; omega⟩

/-- The hypotheses of `C99_classification_refused` hold for a list whose second classification has no prediction. -/
example : ∃ (pre post : List Classif) (c : Classif), c.preds = [] ∧ (∀ d ∈ pre, d.preds ≠ []) ∧ pre.length = 1 ∧ post.length = 1 ∧
    (Loader.init.addData (pre ++ c :: post)).1.labels = ["cat", "dog"] :=
  ⟨[⟨"a", "cat", ["cat", "dog"], [1, 0], ""⟩], [⟨"z", "cow", ["cow"], [1], ""⟩], ⟨"b", "bird", [], [], ""⟩, rfl, by simp, rfl, rfl, by decide +kernel⟩

end Verif.Classification
