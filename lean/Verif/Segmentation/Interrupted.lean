import Verif.Segmentation.FilterProps

/-! # C88: loading a segmentation evaluator without `finalize` -/

namespace Verif.Segmentation

open Verif.Shared

/-- `Evaluator.load` (`evaluator.py` 191-237) on a cache with this content that can be read, that is, no file is still open;
path, configuration and metadata file are in `Verif.Metadata`. -/
def load (tables : List (List SRow)) (override : Option (List (Int × String))) : Evaluator :=
  ⟨tables, labelsOf (tables.map (fun t => t.map labelCols)) override⟩

/-- **C88 (segmentation).** Whatever has been written, `load` gives the evaluator that `finalize` returns for it; only where
nothing has been written does `finalize` raise and `load` return an evaluator without rows. -/
theorem C88_segmentation (tables : List (List SRow)) (o : Option (List (Int × String))) :
    (tables.flatten ≠ [] → finalize tables o = .ok (load tables o)) ∧
    (tables.flatten = [] → finalize tables o = .error .empty ∧ (load tables o).tables.flatten = []) := by
  unfold finalize load
  constructor
  · intro h
    rw [if_neg (fun hl => h (List.length_eq_zero_iff.1 hl))]
  · intro h
    rw [if_pos (by simp [h])]
    exact ⟨rfl, h⟩

/-- A cache with a row. -/
example (r : SRow) : ([[r]] : List (List SRow)).flatten ≠ [] := by simp

end Verif.Segmentation
