import Verif.Detection.Rank
import Verif.Classification.Loader

/-!
# Detection loader (`object_detection/annotation.py`, `object_detection/loader.py`)

The IoU matrix of a detection (`loader.py` 209-221, 243-254, 276-287) is a function of the prediction index
and the ground truth index.
-/

namespace Verif.Detection

open Verif.Classification (addLabel)

/-- An annotation (`annotation.py` 47-65, 109-132, 164-193) without its geometry. `info` stands for the
metadata dictionary. -/
structure Ann where
  uid : String
  labels : List String
  scores : List Rat := []
  info : String := ""
deriving DecidableEq

/-- The checks on labels and scores of `__post_init__` (`annotation.py` 57-65; the same in 124-132 and
185-193). -/
def Ann.valid (a : Ann) : Bool :=
  !(a.scores.length == 0 && a.labels.length != 1) && !(decide (a.scores.length > 0) && a.labels.length != a.scores.length)

/-- `Detection` (`annotation.py` 228-231). -/
structure Det where
  uid : String
  gts : List Ann
  pds : List Ann
  info : String := ""
deriving DecidableEq

/-- `Detection.__post_init__` (`annotation.py` 233-238): a score for every label of a prediction. Nothing is
required of the ground truths. -/
def Det.valid (d : Det) : Bool := d.pds.all (fun p => p.scores.length == p.labels.length)

/-- A row of the detailed cache (`shared.py` 38-68). `info` are the metadata dictionaries that are merged
into the row, in order of increasing precedence. -/
structure FRow where
  row : Row
  datumUid : String
  gtUid : Option String
  gtLabel : Option String
  pdUid : Option String
  pdLabel : Option String
  info : List String
deriving DecidableEq

/-- A step of the loops of `_add_data`: add a ground truth label, then a prediction label to the index, and
append rows that use the indices (−1 where no label is added). -/
structure Step where
  gl : Option String
  pl : Option String
  out : Int → Int → List FRow

/-- `_add_label` for an optional label (`loader.py` 41-47). -/
def addLabel? (ls : List String) : Option String → List String × Int
  | none => (ls, -1)
  | some v => ((addLabel ls v).1, ((addLabel ls v).2 : Int))

/-- Run the steps. -/
def exec : List Step → List String → List String × List FRow
  | [], ls => (ls, [])
  | s :: ss, ls =>
    let g := addLabel? ls s.gl
    let p := addLabel? g.1 s.pl
    let rest := exec ss p.1
    (rest.1, s.out g.2 p.2 ++ rest.2)

/-- Row of a ground truth without overlapping prediction (`loader.py` 71-93). -/
def gtRow (d : Det) (k : Int) (a : Ann) (gid gl : Int) (label : String) : FRow :=
  ⟨⟨k, gid, -1, gl, -1, 0, -1⟩, d.uid, some a.uid, some label, none, none, [d.info, a.info]⟩

/-- Row of a prediction label without overlapping ground truth (`loader.py` 99-118, 162-181). -/
def pdRow (d : Det) (k : Int) (a : Ann) (pid pl : Int) (label : String) (score : Rat) : FRow :=
  ⟨⟨k, -1, pid, -1, pl, 0, score⟩, d.uid, none, none, some a.uid, some label, [d.info, a.info]⟩

/-- Row of a pair (`loader.py` 126-149). -/
def pairRow (d : Det) (k : Int) (ga pa : Ann) (gid pid gl pl : Int) (glabel plabel : String) (iou score : Rat) : FRow :=
  ⟨⟨k, gid, pid, gl, pl, iou, score⟩, d.uid, some ga.uid, some glabel, some pa.uid, some plabel, [d.info, ga.info, pa.info]⟩

/-- `(ious[:, gidx] < EPSILON).all()` (`loader.py` 70). -/
def gtAlone (d : Det) (iou : Nat → Nat → Rat) (g : Nat) : Bool :=
  (List.range d.pds.length).all (fun p => decide (iou p g < EPSILON))

/-- `(ious[pidx, :] < EPSILON).all()` (`loader.py` 97). -/
def pdAlone (d : Det) (iou : Nat → Nat → Rat) (p : Nat) : Bool :=
  (List.range d.gts.length).all (fun g => decide (iou p g < EPSILON))

/-- The steps for the labels of a prediction that is written without ground truth (`loader.py` 98-123,
161-186). -/
def pdSteps (d : Det) (k : Int) (p0 : Nat) (x : Ann × Nat) : List Step :=
  (x.1.labels.zip x.1.scores).map (fun y =>
    ⟨none, some y.1, fun _ pl => [pdRow d k x.1 ((p0 + x.2 : Nat) : Int) pl y.1 y.2]⟩)

/-- The steps of a ground truth (`loader.py` 62-156). -/
def gtSteps (d : Det) (iou : Nat → Nat → Rat) (k : Int) (g0 p0 : Nat) (x : Ann × Nat) : List Step :=
  ⟨some (x.1.labels.headD ""), none, fun gl _ =>
      if gtAlone d iou x.2 then [gtRow d k x.1 ((g0 + x.2 : Nat) : Int) gl (x.1.labels.headD "")] else []⟩ ::
  d.pds.zipIdx.flatMap (fun y =>
    (if pdAlone d iou y.2 then pdSteps d k p0 y else []) ++
    (if EPSILON ≤ iou y.2 x.2 then x.1.labels.flatMap (fun glabel => (y.1.labels.zip y.1.scores).map (fun z =>
      ⟨some glabel, some z.1, fun gl pl =>
        [pairRow d k x.1 y.1 ((g0 + x.2 : Nat) : Int) ((p0 + y.2 : Nat) : Int) gl pl glabel z.1 (iou y.2 x.2) z.2]⟩)) else []))

/-- The steps of a detection (`loader.py` 57-186). `k`, `g0`, `p0` are the counters. -/
def detSteps (d : Det) (iou : Nat → Nat → Rat) (k : Int) (g0 p0 : Nat) : List Step :=
  if d.gts.length ≠ 0 then d.gts.zipIdx.flatMap (gtSteps d iou k g0 p0)
  else d.pds.zipIdx.flatMap (pdSteps d k p0)

/-- `Loader` state (`loader.py` 35-39). `rows` is everything handed to the writer, one inner list per
`write_rows` call. -/
structure Loader where
  labels : List String
  datums : Nat
  gts : Nat
  pds : Nat
  rows : List (List FRow)

/-- A fresh loader. -/
def Loader.init : Loader := ⟨[], 0, 0, 0, []⟩

/-- One iteration of `_add_data` (`loader.py` 57-192). -/
def Loader.addOne (s : Loader) (x : Det × (Nat → Nat → Rat)) : Loader :=
  let r := exec (detSteps x.1 x.2 s.datums s.gts s.pds) s.labels
  ⟨r.1, s.datums + 1, s.gts + x.1.gts.length, s.pds + x.1.pds.length, s.rows ++ [r.2]⟩

/-- `_add_data` (`loader.py` 49-192). -/
def Loader.addData (s : Loader) (l : List (Det × (Nat → Nat → Rat))) : Loader := l.foldl Loader.addOne s

/-- Several `add_*` calls. -/
def Loader.addAll (s : Loader) (calls : List (List (Det × (Nat → Nat → Rat)))) : Loader := calls.foldl Loader.addData s

end Verif.Detection
