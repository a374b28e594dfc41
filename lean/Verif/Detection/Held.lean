import Verif.Cache.HandleProps
import Verif.Detection.InfoProps

/-!
# C103: detection evaluators whose loader is used further

`finalize` (`object_detection/evaluator.py` 168-210) gives the evaluator a reader of the detailed cache and one of the ranked
cache. `add_data` writes into the detailed cache only. An evaluator over files then counts ground truths that were never ranked.
-/

namespace Verif.Detection

open Verif.Cache (AnyW Handle SOp WOp FileW)
open Verif.Shared

/-- The row of a second image with one ground truth and one prediction that covers it. -/
def nextRow : FRow := ⟨⟨1, 1, 1, 0, 0, 1, 9 / 10⟩, "e", some "h", some "x", some "q", some "x", []⟩

/-- **C103 (detection), violation.** One image with one ground truth that the only prediction finds: one true positive, none
missed. The loader then takes another such image. The evaluator that was made before reports the ground truth of the new image
as missed, although its prediction covers it. -/
theorem C103_detection_violation :
    let w := (AnyW.file (FileW.create 1 1)).sstep (SOp.call (K := Nat) (.rows [oneRow]))
    let later := w.toReader.1.sstep (SOp.call (K := Nat) (.rows [nextRow]))
    let counts (tables : List (List FRow)) :=
      (tpTotal (1 / 2) 0 [rankTable [oneRow.row]] 0, fpTotal (1 / 2) 0 [rankTable [oneRow.row]] 0,
        fnTotal (1 / 2) 0 (rowsIn tables) [rankTable [oneRow.row]] 0)
    RankedOf (rowsIn [[oneRow]]) (rankTable [oneRow.row]) ∧
    ∃ before after, w.toReader.2.tables w.toReader.1 = .ok before ∧ w.toReader.2.tables later = .ok after ∧
      before = [[oneRow]] ∧ after = [[oneRow], [nextRow]] ∧
      counts before = (1, 0, 0) ∧ counts after = (1, 0, 1) := by
  intro w later counts
  refine ⟨rankedOf_mem [oneRow.row], [[oneRow]], [[oneRow], [nextRow]], ?_, ?_, rfl, rfl, ?_, ?_⟩
  · refine (Verif.Cache.shown rfl).trans ?_
    rw [FileW.orderedTables_perm (by decide +kernel) (List.Perm.refl _)]
    decide +kernel
  · refine (Verif.Cache.shown rfl).trans ?_
    rw [FileW.orderedTables_perm (by decide +kernel) (List.Perm.refl _)]
    decide +kernel
  · simp only [counts, oneRanked_eq]
    decide +kernel
  · simp only [counts, oneRanked_eq]
    decide +kernel

end Verif.Detection
