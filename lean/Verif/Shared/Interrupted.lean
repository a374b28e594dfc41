import Verif.Shared.Metadata

/-!
# Creation of a persistent evaluator, step by step

The calls `Builder.persistent` as sequences of file system steps; a crash leaves the state after some prefix.
-/

namespace Verif.Metadata

open Verif.Cache

/-- The states after each file system step of a call, and its outcome. -/
abbrev Run (τ : Type) := List (Root τ) × Except Err Unit

/-- The state at the end of a trace that starts in `r`. -/
def endOf (r : Root τ) (trace : List (Root τ)) : Root τ := (r :: trace).getLast (by simp)

/-- One call after another: an exception ends the sequence. -/
def Run.next (r : Root τ) (x : Run τ) (f : Root τ → Run τ) : Run τ :=
  match x with
  | (tr, .error e) => (tr, .error e)
  | (tr, .ok ()) => (tr ++ (f (endOf r tr)).1, (f (endOf r tr)).2)

/-- `mkdir(parents=True)` of `FileCacheWriter.create` (`cache/persistent.py` 330) makes the directory of the evaluator
when it is missing. -/
def parentSteps : Root τ → List (Root τ)
  | .missing => [.dir (fun _ => .missing) none]
  | _ => []

/-- `FileCacheWriter.create(path / name, ...)` (`cache/persistent.py` 299-349), with its schema evaluated before. -/
def createRun (o : Opts) (name : String) (s : Except SchemaErr (Schema τ)) (r : Root τ) : Run τ :=
  match s with
  | .error e => ([], .error (.schema e))
  | .ok s => match r with
    | .file => ([], .error .notADirectory)
    | r => match Life.create ⟨o.batchSize, o.rowsPerFile, o.compression, s⟩ false (r.caches name) with
      | (_, .error e) => ([], .error (.cache e))
      | (tr, .ok ()) => (parentSteps r ++ tr.map (r.setCache name), .ok ())

/-- Writing `metadata.json`: opening with mode `"w"` empties the file (`object_detection/evaluator.py` 135-139). -/
def metaRun (A : Arrow τ) (m : Fields τ) (r : Root τ) : Run τ :=
  ([.dir r.caches (some .partly), .dir r.caches (some (.full (encode A m)))], .ok ())

/-- `Builder.persistent` of object detection (`object_detection/evaluator.py` 92-145), step by step. -/
def detRun (A : Arrow τ) (B : Builtin τ) (o : Opts) (m : Fields τ) (r : Root τ) : Run τ :=
  Run.next r (createRun o "detailed" (detailedSchema A B m) r) fun r1 =>
  Run.next r1 (createRun o "ranked" (rankedSchema A B m) r1) fun r2 =>
  metaRun A m r2

/-- `Builder.persistent` of classification (`classification/evaluator.py` 104-165), step by step. -/
def clsRun (A : Arrow τ) (B : Builtin τ) (o : Opts) (m : Fields τ) (r : Root τ) : Run τ :=
  Run.next r (createRun o "cache" (clsSchema A B m) r) fun r1 =>
  Run.next r1 (createRun o "intermediate" (.ok (intermediateSchema B)) r1) fun r2 =>
  Run.next r2 (createRun o "roc_curve" (.ok (rocCurveSchema B)) r2) fun r3 =>
  metaRun A m r3

/-- `Builder.persistent` of segmentation (`semantic_segmentation/evaluator.py` 69-115), step by step. -/
def segRun (A : Arrow τ) (B : Builtin τ) (o : Opts) (m : Fields τ) (r : Root τ) : Run τ :=
  Run.next r (createRun o "counts" (segSchema A B m) r) fun r1 =>
  metaRun A m r1

end Verif.Metadata
