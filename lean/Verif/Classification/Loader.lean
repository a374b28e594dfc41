import Mathlib.Data.Rat.Defs
import Mathlib.Algebra.Order.Ring.Unbundled.Rat

/-!
# Classification loader (`classification/annotation.py`, `classification/loader.py`)
-/

namespace Verif.Classification

/-- `Classification` (`annotation.py` 32-37). `info` stands for the metadata dictionary. Scores are
rationals (trusted base). -/
structure Classif where
  uid : String
  gt : String
  preds : List String
  scores : List Rat
  info : String := ""
deriving DecidableEq

/-- `Classification.__post_init__` (`annotation.py` 39-45): one score per prediction. The check that
the ground truth is a string is a typing matter. -/
def Classif.valid (c : Classif) : Bool := c.preds.length == c.scores.length

/-- A row of the cache (`shared.py` 36-62, `loader.py` 75-91). -/
structure Row where
  uid : String
  info : String
  datum : Int
  gtLabel : String
  gt : Int
  pdLabel : String
  pd : Int
  score : Rat
  winner : Bool
  isMatch : Bool
deriving DecidableEq

/-- `Loader` state (`loader.py` 26-29). `labels` is the dictionary `_labels`: the label with index
`i` is at position `i`. `rows` is everything handed to the writer, in order, one inner list per
`write_rows` call. -/
structure Loader where
  labels : List String
  datumCount : Nat
  rows : List (List Row)

/-- A fresh loader. -/
def Loader.init : Loader := ⟨[], 0, []⟩

/-- `_add_label` (`loader.py` 31-37). -/
def addLabel (ls : List String) (v : String) : List String × Nat :=
  match ls.idxOf? v with
  | some i => (ls, i)
  | none => (ls ++ [v], ls.length)

/-- `np.argmax`: the loop keeps the first maximum (`best` at `bi`; `i` is the current position). -/
def argmaxLoop : List Rat → Nat → Rat → Nat → Nat
  | [], bi, _, _ => bi
  | x :: xs, bi, best, i =>
    if best < x then argmaxLoop xs i x (i + 1) else argmaxLoop xs bi best (i + 1)

/-- `np.argmax(np.array(scores))` (`loader.py` 70). -/
def argmax : List Rat → Nat
  | [] => 0
  | x :: xs => argmaxLoop xs 0 x 1

/-- The inner loop over predictions (`loader.py` 71-92). -/
def predRows (c : Classif) (k : Nat) (gidx : Nat) (win : Nat) :
    List (String × Rat) → Nat → List String → List String × List Row
  | [], _, ls => (ls, [])
  | (p, s) :: rest, i, ls =>
    let (ls', pidx) := addLabel ls p
    let row : Row :=
      { uid := c.uid, info := c.info, datum := k, gtLabel := c.gt, gt := gidx, pdLabel := p,
        pd := pidx, score := s, winner := win == i, isMatch := gidx == pidx && decide (0 ≤ pidx) }
    let (ls'', rows) := predRows c k gidx win rest (i + 1) ls'
    (ls'', row :: rows)

/-- One iteration of `add_data` (`loader.py` 56-97); `none` is the `ValueError` for a
classification without predictions. -/
def Loader.addOne (s : Loader) (c : Classif) : Option Loader :=
  if c.preds.length = 0 then none
  else
    let (ls, gidx) := addLabel s.labels c.gt
    let (ls', rows) := predRows c s.datumCount gidx (argmax c.scores) (c.preds.zip c.scores) 0 ls
    some ⟨ls', s.datumCount + 1, s.rows ++ [rows]⟩

/-- `add_data` (`loader.py` 39-97): the state afterwards and whether it raised. Classifications
before the offending one have been added. -/
def Loader.addData (s : Loader) : List Classif → Loader × Bool
  | [] => (s, false)
  | c :: cs => match s.addOne c with
    | none => (s, true)
    | some s' => s'.addData cs

/-- Several `add_data` calls. -/
def Loader.addAll (s : Loader) (calls : List (List Classif)) : Loader :=
  calls.foldl (fun s cs => (s.addData cs).1) s

end Verif.Classification
