import Verif.Classification.Pairs

/-!
# ROCAUC (`classification/evaluator.py` 166-259, 524-567, `classification/computation.py` 9-90,
`classification/shared.py` 144-184)

Scores and quotients are exact rationals instead of floats. Arrays indexed by label id are functions
of the id.
-/

namespace Verif.Classification

/-- A row of the sorted intermediate cache (`evaluator.py` 182-186). -/
structure IRow where
  label : Int
  score : Rat
  isMatch : Bool
deriving DecidableEq, Repr

/-- The three columns of a stored row (`evaluator.py` 182-186). -/
def irow (r : Row) : IRow := ⟨r.pd, r.score, r.isMatch⟩

/-- A row of the ROC curve cache (`evaluator.py` 233-239). -/
structure RocRow where
  label : Nat
  fp : Nat
  tp : Nat
deriving DecidableEq, Repr

/-- The running values of one label (`evaluator.py` 190-194). -/
structure LState where
  fp : Nat
  tp : Nat
  score : Rat
  last : Nat × Nat
deriving DecidableEq, Repr

/-- Zeros (`evaluator.py` 190-194). -/
def LState.init : LState := ⟨0, 0, 0, (0, 0)⟩

/-- `np.r_[start, np.cumsum(bs) + start]` (`evaluator.py` 206-213). -/
def cumsum (start : Nat) (bs : List Bool) : List Nat := bs.scanl (fun n b => n + b.toNat) start

/-- `np.where(np.diff(xs))[0]`: positions where the next element differs (`evaluator.py` 216-221). -/
def changes (xs : List Rat) : List Nat :=
  (List.range (xs.length - 1)).filter (fun j => decide (xs[j + 1]? ≠ xs[j]?))

/-- NumPy indexing: negative indices count from the end. -/
def pyAt (xs : List Nat) (i : Int) : Nat :=
  if 0 ≤ i then xs.getD i.toNat 0 else xs.getD (xs.length - i.natAbs) 0

/-- The body of the loop over labels (`evaluator.py` 206-240): the rows of one label in one table. -/
def rocStep (st : LState) (rows : List IRow) : LState × List (Nat × Nat) :=
  let cfp := cumsum st.fp (rows.map (fun r => !r.isMatch))
  let ctp := cumsum st.tp (rows.map IRow.isMatch)
  let scores := st.score :: rows.map IRow.score
  let indices := (changes (st.score :: scores)).map (fun j : Nat => (j : Int) - 1)
  let out := indices.map (fun i => (pyAt cfp i, pyAt ctp i))
  (⟨cfp.getLastD 0, ctp.getLastD 0, scores.getLastD 0, out.getLastD st.last⟩, out)

/-- One table (`evaluator.py` 196-240); `keys` are the keys of `index_to_label`. -/
def rocTable (keys : List Nat) (σ : Nat → LState) (tbl : List IRow) : (Nat → LState) × List RocRow :=
  keys.foldl (fun (acc : (Nat → LState) × List RocRow) (k : Nat) =>
    let rows := tbl.filter (fun r => decide (r.label = (k : Int)))
    if rows.isEmpty then acc
    else
      let (s, out) := rocStep (acc.1 k) rows
      (Function.update acc.1 k s, acc.2 ++ out.map (fun x => ⟨k, x.1, x.2⟩))) (σ, [])

/-- The loop over tables (`evaluator.py` 195-240). -/
def rocTables (keys : List Nat) (tables : List (List IRow)) : (Nat → LState) × List RocRow :=
  tables.foldl (fun acc tbl =>
    let (σ, out) := rocTable keys acc.1 tbl
    (σ, acc.2 ++ out)) (fun _ => LState.init, [])

/-- `_create_rocauc_intermediate` (`evaluator.py` 166-259) after sorting: the rows written to the ROC
curve cache. -/
def rocCurve (keys : List Nat) (n : Nat) (tables : List (List IRow)) : List RocRow :=
  let (σ, out) := rocTables keys tables
  out ++ (List.range n).filterMap (fun k =>
    if (σ k).last.1 ≠ (σ k).fp ∨ (σ k).last.2 ≠ (σ k).tp then some ⟨k, (σ k).fp, (σ k).tp⟩ else none)

/-- `extract_groundtruth_count_per_label` (`shared.py` 144-184) without filters, ground truths. -/
def gtCount (frags : List (List Row)) (l : Nat) : Nat :=
  (frags.map (fun f => ((unique ((f.filter (fun r => decide (r.gt ≥ 0))).map
    (fun r => (r.datum, r.gt)))).map Prod.snd).count (l : Int))).sum

/-- The same, predictions (`shared.py` 170-182). -/
def pdCount (frags : List (List Row)) (l : Nat) : Nat :=
  (frags.map (fun f => ((unique ((f.filter (fun r => decide (r.pd ≥ 0))).map
    (fun r => (r.datum, r.pd)))).map Prod.snd).count (l : Int))).sum

/-- `pd_count_per_label - gt_count_per_label` on `uint64` (`computation.py` 52): wraps around below
zero. (Counts themselves are assumed to fit into 64 bits.) -/
def negCount (pd gt : Nat) : Nat := if gt ≤ pd then pd - gt else 2 ^ 64 + pd - gt

/-- `trapezoid(x, y)` (`numpy_compatibility.py` 10-13). -/
def trapezoid : List (Rat × Rat) → Rat
  | [] => 0
  | [_] => 0
  | a :: b :: rest => (b.1 - a.1) * (b.2 + a.2) / 2 + trapezoid (b :: rest)

/-- `np.divide(x, d, where=d > 0, out=zeros)` (`computation.py` 74-86). -/
def ratio (x d : Nat) : Rat := if d > 0 then (x : Rat) / d else 0

/-- The body of the label loop of `compute_rocauc` (`computation.py` 54-88) for one label: `acc` is the
running area and the previous pair. -/
def rocChunk (l gt pd : Nat) (acc : Rat × Nat × Nat) (chunk : List RocRow) : Rat × Nat × Nat :=
  let pts := (chunk.filter (fun r => decide (r.label = l))).map (fun r => (r.fp, r.tp))
  if pd = 0 ∨ pts.length = 0 then acc
  else
    let pts := if acc.2.1 > 0 ∨ acc.2.2 > 0 then acc.2 :: pts else pts
    let prev := pts.getLastD (0, 0)
    if pts.length = 1 then (acc.1, prev)
    else
      (acc.1 + trapezoid (pts.map (fun x => (ratio x.1 (negCount pd gt), ratio x.2 gt))), prev)

/-- `Evaluator.compute_rocauc` (`evaluator.py` 524-567), the area of label `l`; `chunks` are the arrays
yielded by the reader of the ROC curve cache. -/
def rocauc (frags : List (List Row)) (chunks : List (List RocRow)) (l : Nat) : Rat :=
  (chunks.foldl (rocChunk l (gtCount frags l) (pdCount frags l)) (0, 0, 0)).1

/-- `rocauc.mean()` (`evaluator.py` 561). (With no labels NumPy yields NaN; an evaluator has at least
one label.) -/
def meanRocauc (frags : List (List Row)) (chunks : List (List RocRow)) (n : Nat) : Rat :=
  ((List.range n).map (rocauc frags chunks)).sum / n

end Verif.Classification
