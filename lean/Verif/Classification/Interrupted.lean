import Verif.Classification.FilterProps

/-! # C88: loading a classification evaluator whose `finalize` was interrupted -/

namespace Verif.Classification

open Verif.Shared

/-- `Evaluator.load` (`evaluator.py` 352-402) on caches with this content. Both caches can be read, that is, no file is still
open; path, configuration and metadata file are in `Verif.Metadata`. -/
def Builder.load (b : Builder) (override : Option (List (Int × String))) : EvalState :=
  ⟨b.tables, b.roc, labelsOf (b.tables.map (fun t => t.map labelCols)) override⟩

/-- The caches when `finalize` stops after `k` rows of the ROC curve cache (`evaluator.py` 167-259, 286-310). -/
def Builder.interrupted (b : Builder) (sorted : List (List Row)) (inter : List (List IRow)) (override : Option (List (Int × String)))
    (k : Nat) : Builder :=
  let labels := labelsOf (sorted.map (fun t => t.map labelCols)) override
  ⟨sorted, b.roc ++ (rocCurve (labels.map (fun x => x.1.toNat)) labels.length inter).take k⟩

/-- **C88 (classification, the complete cache).** What is loaded after `finalize` is the evaluator that `finalize` returned; and
wherever it stopped, rows and labels are those of the complete evaluator, so that everything but ROCAUC agrees. -/
theorem C88_classification_partial {b b' : Builder} {sorted : List (List Row)} {inter : List (List IRow)}
    {o : Option (List (Int × String))} {e : EvalState} (h : b.finalize sorted inter o = .ok (b', e)) :
    b'.load o = e ∧ ∀ k, ((b.interrupted sorted inter o k).load o).tables = e.tables ∧
      ((b.interrupted sorted inter o k).load o).labels = e.labels := by
  unfold Builder.finalize at h
  split at h
  · cases h
  · split at h
    · cases h
    · cases h
      exact ⟨rfl, fun k => ⟨rfl, rfl⟩⟩

/-- The full claim: a directory that loads gives the ROCAUC of the complete evaluation. -/
def LoadsComplete : Prop :=
  ∀ (b b' : Builder) (sorted : List (List Row)) (inter : List (List IRow)) (e : EvalState) (k : Nat),
    inter.flatten.Perm (sorted.flatten.map irow) → b.finalize sorted inter none = .ok (b', e) →
    ∀ l, rocauc e.tables [((b.interrupted sorted inter none k).load none).roc] l = rocauc e.tables [e.roc] l

/-- Two images, both classified correctly. -/
def twoRows : List Row :=
  [⟨"u", "{}", 0, "a", 0, "a", 0, 9 / 10, true, true⟩, ⟨"u", "{}", 0, "a", 0, "b", 1, 1 / 10, false, false⟩,
   ⟨"v", "{}", 1, "b", 1, "a", 0, 2 / 10, false, false⟩, ⟨"v", "{}", 1, "b", 1, "b", 1, 8 / 10, true, true⟩]

/-- Their rows in the intermediate cache. -/
def twoInter : List IRow := [⟨0, 9 / 10, true⟩, ⟨1, 8 / 10, true⟩, ⟨0, 2 / 10, false⟩, ⟨1, 1 / 10, false⟩]

/-- **C88 (classification), violation.** Every image is ranked perfectly, so ROCAUC is 1; loaded before the curve is written, the
evaluator reports 0, and no error. -/
theorem C88_classification_violation : ¬ LoadsComplete ∧
    let full := (⟨[twoRows], []⟩ : Builder).finalize [twoRows] [twoInter] none
    full.toOption.map (fun x => rocauc x.2.tables [x.2.roc] 0) = some 1 ∧
    let x := ((⟨[twoRows], []⟩ : Builder).interrupted [twoRows] [twoInter] none 0).load none
    rocauc x.tables [x.roc] 0 = 0 := by
  constructor
  · intro h
    have := h ⟨[twoRows], []⟩ _ [twoRows] [twoInter] _ 0 (by decide +kernel) rfl 0
    revert this
    decide +kernel
  · constructor <;> decide +kernel

/-- A finalize that succeeds. -/
example : ∃ b' e, (⟨[twoRows], []⟩ : Builder).finalize [twoRows] [twoInter] none = .ok (b', e) := ⟨_, _, rfl⟩

end Verif.Classification
