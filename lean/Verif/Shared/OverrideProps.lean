import Verif.Detection.Interrupted
import Verif.Classification.Interrupted
import Verif.Segmentation.Interrupted

/-! # C50: a label mapping that is given is the mapping that is used -/

namespace Verif.Shared

/-- **C50 (override).** `finalize` and `load` of the three evaluators with `index_to_label_override` use exactly the given
mapping, whatever labels the cache holds; `filter` gives the mapping of the evaluator that is filtered. -/
theorem C50_override (d : List (Int × String)) :
    (∀ (b b' : Classification.Builder) sorted inter e, b.finalize sorted inter (some d) = .ok (b', e) → e.labels = d) ∧
    (∀ b : Classification.Builder, (b.load (some d)).labels = d) ∧
    (∀ (b b' : Detection.Builder) k sorted new e, b.finalize k sorted new (some d) = .ok (b', e) → e.labels = d) ∧
    (∀ b : Detection.Builder, (b.load (some d)).labels = d) ∧
    (∀ tables e, Segmentation.finalize tables (some d) = .ok e → e.labels = d) ∧
    (∀ tables, (Segmentation.load tables (some d)).labels = d) := by
  refine ⟨?_, fun _ => rfl, ?_, fun _ => rfl, ?_, fun _ => rfl⟩
  · intro b b' sorted inter e h
    unfold Classification.Builder.finalize at h
    split at h
    · cases h
    · split at h
      · cases h
      · cases h; rfl
  · intro b b' k sorted new e h
    unfold Detection.Builder.finalize at h
    split at h
    · cases h
    · cases h; rfl
  · intro tables e h
    unfold Segmentation.finalize at h
    split at h
    · cases h
    · cases h; rfl

/-- A given label that the cache does not hold stays in the mapping. -/
example : ∃ b' e, (⟨[Classification.twoRows], []⟩ : Classification.Builder).finalize [Classification.twoRows] [Classification.twoInter]
    (some [(0, "a"), (1, "b"), (2, "c")]) = .ok (b', e) ∧ e.labels = [(0, "a"), (1, "b"), (2, "c")] := ⟨_, _, rfl, rfl⟩

end Verif.Shared
