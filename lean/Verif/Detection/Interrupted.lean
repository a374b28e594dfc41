import Verif.Detection.InfoProps

/-! # C88: loading a detection evaluator whose `finalize` was interrupted -/

namespace Verif.Detection

open Verif.Shared

/-- `Evaluator.load` (`evaluator.py` 252-290) on caches with this content. Both caches can be read, that is, no file is still
open; path, configuration and metadata file are in `Verif.Metadata`. -/
def Builder.load (b : Builder) (override : Option (List (Int × String))) : EvalState :=
  ⟨b.tables, b.ranked, labelsOf (b.tables.map (fun t => t.map labelCols)) override⟩

/-- What the ranked cache holds when `finalize` stops after some files of the ranked cache (`evaluator.py` 147-166, 190-203). -/
def Builder.interrupted (b : Builder) (sorted : List (List FRow)) (new : List (List RRow)) (k : Nat) : Builder :=
  ⟨sorted, b.ranked ++ new.take k⟩

/-- **C88 (detection, the complete cache).** What is loaded after `finalize` is the evaluator that `finalize` returned. -/
theorem C88_detection_partial {b b' : Builder} {sorted : List (List FRow)} {new : List (List RRow)} {o : Option (List (Int × String))}
    {e : EvalState} (h : b.finalize .file sorted new o = .ok (b', e)) : b'.load o = e := by
  unfold Builder.finalize at h
  split at h
  · cases h
  · cases h
    rfl

/-- **C88 (detection, what is missing).** Stopped after any number of ranked files, the loaded evaluator has the detailed rows
and labels of the complete one, so that the ground truths agree, but never more and possibly fewer true and false positives. -/
theorem C88_detection_understates {b b' : Builder} {sorted : List (List FRow)} {new : List (List RRow)} {o : Option (List (Int × String))}
    {e : EvalState} (h : b.finalize .file sorted new o = .ok (b', e)) (k : Nat) (t s : Rat) (l : Int) :
    let x := (b.interrupted sorted new k).load o
    x.tables = e.tables ∧ x.labels = e.labels ∧ tpTotal t s x.ranked l ≤ tpTotal t s e.ranked l ∧
      fpTotal t s x.ranked l ≤ fpTotal t s e.ranked l := by
  intro x
  unfold Builder.finalize at h
  split at h
  · cases h
  · cases h
    refine ⟨rfl, rfl, ?_, ?_⟩
    · show tpTotal t s (b.ranked ++ new.take k) l ≤ tpTotal t s (b.ranked ++ new) l
      have : tpTotal t s (b.ranked ++ new) l = tpTotal t s (b.ranked ++ new.take k) l + tpTotal t s (new.drop k) l := by
        rw [← tpTotal_append, List.append_assoc, List.take_append_drop]
      omega
    · show fpTotal t s (b.ranked ++ new.take k) l ≤ fpTotal t s (b.ranked ++ new) l
      have : fpTotal t s (b.ranked ++ new) l = fpTotal t s (b.ranked ++ new.take k) l + fpTotal t s (new.drop k) l := by
        unfold fpTotal
        rw [← List.sum_append, ← List.map_append, List.append_assoc, List.take_append_drop]
      omega

/-- The full claim: a directory that loads gives the counts of the complete evaluation. -/
def LoadsComplete : Prop :=
  ∀ (b b' : Builder) (sorted : List (List FRow)) (new : List (List RRow)) (e : EvalState) (k : Nat),
    RankedOf (rowsIn sorted) new.flatten → b.finalize .file sorted new none = .ok (b', e) →
    ∀ t s l, tpTotal t s ((b.interrupted sorted new k).load none).ranked l = tpTotal t s e.ranked l

/-- **C88 (detection), violation.** One ground truth found by the only prediction: loaded before the ranking is written, the
evaluator reports no true positive and one missed ground truth, and no error. -/
theorem C88_detection_violation : ¬ LoadsComplete ∧
    let x := ((⟨[[oneRow]], []⟩ : Builder).interrupted [[oneRow]] [rankTable [oneRow.row]] 0).load none
    tpTotal (1 / 2) 0 x.ranked 0 = 0 ∧ fnTotal (1 / 2) 0 (rowsIn x.tables) x.ranked 0 = 1 := by
  constructor
  · intro h
    have := h ⟨[[oneRow]], []⟩ _ [[oneRow]] [rankTable [oneRow.row]] _ 0 (by simpa using rankedOf_mem [oneRow.row]) rfl (1 / 2) 0 0
    revert this
    simp only [oneRanked_eq]
    decide +kernel
  · decide +kernel

/-- A finalize that succeeds, with one ranked file. -/
example : ∃ b' e, (⟨[[oneRow]], []⟩ : Builder).finalize .file [[oneRow]] [rankTable [oneRow.row]] none = .ok (b', e) := ⟨_, _, rfl⟩

end Verif.Detection
