import Mathlib.Data.List.Lex
import Mathlib.Algebra.Order.Ring.Unbundled.Rat
import Verif.Cache.Writer

/-!
# External sort (`cache/compute.py` 13-157)
-/

namespace Verif.Cache

/-- Direction of a sort argument, PyArrow's `"ascending"`/`"descending"`. -/
inductive Dir where
  | asc
  | desc
deriving DecidableEq, Repr

/-- `args` of `create_sort_key` (`compute.py` 37-42): numeric values, negated when descending.
Numeric cells are rationals. -/
def sortArgs (sorting : List (String × Dir)) (row : String → Rat) : List Rat :=
  sorting.map fun nd => match nd.2 with
    | .desc => - row nd.1
    | .asc => row nd.1

section Merge
variable {α K : Type} [LinearOrder K]

/-- A heap entry `(*args, batch_idx, row_idx)` (`compute.py` 43-47). -/
structure Entry (K : Type) where
  k : K
  i : Nat
  r : Nat

/-- Python tuple comparison of two entries. -/
def Entry.le (a b : Entry K) : Bool :=
  decide (a.k < b.k ∨ (a.k = b.k ∧ (a.i < b.i ∨ (a.i = b.i ∧ a.r ≤ b.r))))

/-- `heapq.heappop`: removes a minimal entry (the heap is modelled by the multiset of its entries;
`heapify` does not change the multiset). -/
def popMin : List (Entry K) → Option (Entry K × List (Entry K))
  | [] => none
  | e :: es => match popMin es with
    | none => some (e, [])
    | some (m, rest) => if e.le m then some (e, es) else some (m, e :: rest)

/-- Local variables of `_merge`: `heap`, `batches`, `batch_iterators` (`compute.py` 50-52). The
Python lists indexed by `batch_idx` are functions. -/
structure MState (α K : Type) where
  heap : List (Entry K)
  batches : Nat → Option (List α)
  iters : Nat → List (List α)

/-- Update of one list cell. -/
def upd {β : Type} (f : Nat → β) (i : Nat) (v : β) : Nat → β := fun j => if j = i then v else f j

/-- The push guarded by `batches[batch_idx] is not None and len(...) > 0`
(`compute.py` 60-61, 78-82). -/
def pushHead (key : α → K) (i : Nat) (b : Option (List α)) (heap : List (Entry K)) :
    List (Entry K) :=
  match b with
  | some (x :: _) => ⟨key x, i, 0⟩ :: heap
  | _ => heap

/-- The initialisation loop (`compute.py` 50-62). -/
def mergeInit (key : α → K) (frags : List (List (List α))) : MState α K :=
  let its : Nat → List (List α) := fun i => frags.getD i []
  { heap := (List.range frags.length).foldl (fun h i => pushHead key i (its i).head? h) []
    batches := fun i => (its i).head?
    iters := fun i => (its i).tail }

/-- One iteration of the `while heap` loop (`compute.py` 64-82): the emitted row and the new state.
`batches[batch_idx].slice(row_idx, 1)` is the row at `row_idx`. -/
def mergeStep (key : α → K) (s : MState α K) : Option (List α × MState α K) :=
  match popMin s.heap with
  | none => none
  | some (e, heap) =>
    let batch := (s.batches e.i).getD []
    let out := (batch.drop e.r).take 1
    let r := e.r + 1
    match batch[r]? with
    | some x => some (out, { s with heap := ⟨key x, e.i, r⟩ :: heap })
    | none =>
      let nb := (s.iters e.i).head?
      some (out, { heap := pushHead key e.i nb heap
                   batches := upd s.batches e.i nb
                   iters := upd s.iters e.i (s.iters e.i).tail })

/-- The `while heap` loop with an explicit bound on the number of iterations; returns the rows
emitted and the final state (`compute.py` 64-82). -/
def mergeLoop (key : α → K) : Nat → MState α K → List α × MState α K
  | 0, s => ([], s)
  | n + 1, s => match mergeStep key s with
    | none => ([], s)
    | some (out, s') => let r := mergeLoop key n s'; (out ++ r.1, r.2)

/-- Rows emitted by `_merge` for the fragments of the intermediate cache, each given by its batches
(`compute.py` 49-82). The iteration bound is the total number of rows (shown sufficient). -/
def mergeRows (key : α → K) (frags : List (List (List α))) : List α :=
  (mergeLoop key frags.flatten.flatten.length (mergeInit key frags)).1

end Merge

section SortCache
variable {σ α K : Type} [LinearOrder K]

/-- The write calls `_merge` makes on the sink (`compute.py` 69, 84). -/
def sinkCalls (rows : List α) : List (WOp α) := rows.map (fun x => WOp.batch [x]) ++ [.flush]

/-- `sort` into a `FileCacheWriter` (`compute.py` 87-143). `tables` are the tables of the source,
`localSort` is `table_sort_override` (which may change the columns, hence a second row type) or
`tbl.sort_by(sorting)`, `batching` is the way a fragment is
cut into batches. The intermediate cache is a `FileCacheWriter` in a temporary directory, written
with `write_table` only and read back in fragment order. -/
def sortToFile (key : α → K) (localSort : List σ → List α) (batching : List α → List (List α))
    (tables : List (List σ)) (sink : FileW α) : FileW α :=
  if tables.length = 1 then
    sink.run (tables.map (fun t => WOp.table (localSort t)) ++ [.flush])
  else
    let mid : FileW α := (FileW.create sink.batchSize sink.rowsPerFile).run
      (tables.map (fun t => WOp.table (localSort t)) ++ [.flush])
    let frags := (FileW.orderedTables mid.closed).map batching
    sink.run (sinkCalls (mergeRows key frags))

/-- `sort` into a `MemoryCacheWriter` (`compute.py` 115-123, 144-157). The intermediate cache is a
`MemoryCacheWriter`, whose reader has a single fragment (`ephemeral.py` 121-138). -/
def sortToMem (key : α → K) (localSort : List σ → List α) (batching : List α → List (List α))
    (tables : List (List σ)) (sink : MemW α) : MemW α :=
  if tables.length = 1 then
    sink.run (tables.map (fun t => WOp.table (localSort t)) ++ [.flush])
  else
    let mid : MemW α := (MemW.create sink.batchSize).run
      (tables.map (fun t => WOp.table (localSort t)))
    let frags := [mid.read].map batching
    sink.run (sinkCalls (mergeRows key frags))

end SortCache

/-- `Table.sort_by(sorting)` (pyarrow; a stable sort by the sort arguments, see the trusted base). -/
def sortBy {α K : Type} [LinearOrder K] (key : α → K) (t : List α) : List α :=
  t.mergeSort (fun a b => decide (key a ≤ key b))

/-- `to_batches(batch_size=n)` on a fragment without row-group boundaries: consecutive slices of
`n` rows, the last one shorter. -/
def chunksOf {α : Type} (n : Nat) : List α → List (List α)
  | [] => []
  | x :: xs => (x :: xs.take (n - 1)) :: chunksOf n (xs.drop (n - 1))
termination_by l => l.length
decreasing_by simp; omega

/-! ## Specification vocabulary -/

/-- Ordered by `key`. -/
def SortedBy {α K : Type} [LE K] (key : α → K) (l : List α) : Prop :=
  l.Pairwise (fun a b => key a ≤ key b)

/-- `out` contains the rows of `l`, and rows with equal key keep their relative order. -/
def StableOf {α K : Type} [DecidableEq K] (key : α → K) (l out : List α) : Prop :=
  ∀ k, out.filter (fun x => decide (key x = k)) = l.filter (fun x => decide (key x = k))

/-- A way of reading a fragment in batches: nothing lost or reordered, no empty batch. -/
def IsBatching {α : Type} (batching : List α → List (List α)) : Prop :=
  ∀ t, (batching t).flatten = t ∧ [] ∉ batching t

end Verif.Cache
