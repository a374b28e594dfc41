/-!
# Cache writers (`cache/ephemeral.py`, `cache/persistent.py`)

Model of the two writer classes as state machines over an abstract row type `α`.
A record batch or a table is a list of rows. Parquet encoding is the identity on
rows (trusted base). Schema/type errors raised by pyarrow before any state change
are not modelled.
-/

namespace Verif.Cache

/-- The calls a client can make on a writer (`ephemeral.py` 176-272,
`persistent.py` 379-477). `columns none` is `write_columns({})`. -/
inductive WOp (α : Type) where
  | rows (l : List α)
  | columns (c : Option (List α))
  | batch (b : List α)
  | table (t : List α)
  | flush
deriving Repr

/-! ## In-memory writer -/

/-- `MemoryCacheWriter` fields: `_batch_size`, `_table`, `_buffer`
(`ephemeral.py` 140-152). -/
structure MemW (α : Type) where
  batchSize : Nat
  table : List α
  buffer : List (List α)

namespace MemW
variable {α : Type}

/-- `MemoryCacheWriter.create` (`ephemeral.py` 154-174). -/
def create (batchSize : Nat) : MemW α := ⟨batchSize, [], []⟩

/-- `write_table` (`ephemeral.py` 245-257): appended directly, the buffer is not
flushed. -/
def writeTable (s : MemW α) (t : List α) : MemW α := { s with table := s.table ++ t }

/-- `write_batch` (`ephemeral.py` 210-243). The sum over the buffer is the sum of
the batch lengths; `if self._buffer` tests for a non-empty list of batches. -/
def writeBatch (s : MemW α) (b : List α) : MemW α :=
  let size := b.length + (s.buffer.map List.length).sum
  if size < s.batchSize then { s with buffer := s.buffer ++ [b] }
  else if s.buffer.isEmpty then s.writeTable b
  else { s with buffer := [] }.writeTable (s.buffer ++ [b]).flatten

/-- `flush` (`ephemeral.py` 259-272). -/
def flush (s : MemW α) : MemW α :=
  if s.buffer.isEmpty then s
  else { s with table := s.table ++ s.buffer.flatten, buffer := [] }

/-- `write_rows` (`ephemeral.py` 176-191): no-op on an empty list. -/
def writeRows (s : MemW α) (l : List α) : MemW α :=
  if l.isEmpty then s else s.writeBatch l

/-- `write_columns` (`ephemeral.py` 193-208): no-op on an empty dictionary. -/
def writeColumns (s : MemW α) : Option (List α) → MemW α
  | none => s
  | some c => s.writeBatch c

/-- One client call. -/
def step (s : MemW α) : WOp α → MemW α
  | .rows l => s.writeRows l
  | .columns c => s.writeColumns c
  | .batch b => s.writeBatch b
  | .table t => s.writeTable t
  | .flush => s.flush

/-- A history of client calls. -/
def run (s : MemW α) (ops : List (WOp α)) : MemW α := ops.foldl step s

/-- `to_reader` (`ephemeral.py` 297-302) followed by reading the single table
(`iterate_tables` 36-60 without column selection or filter). -/
def read (s : MemW α) : List α := s.flush.table

end MemW

/-! ## On-disk writer -/

/-- `FileCacheWriter` together with its directory (`persistent.py` 277-297).
`closed` are the complete parquet files with their numeric name in order of
creation; `opened` is the file of the open `ParquetWriter` (`_writer`), which is
present in the directory but not yet readable.

`get_dataset_files` lists `glob.glob(f"{path}/*.parquet")`, i.e. the path is used as a
glob *pattern*: `sees` says whether the pattern matches the cache's own directory and
`ext` are the indices of parquet files in other directories that it matches. A path
without the characters `*?[` has `sees = true` and `ext = []`
(see `Verif/Cache/GlobPath.lean`). -/
structure FileW (α : Type) where
  batchSize : Nat
  rowsPerFile : Nat
  closed : List (Nat × List α)
  opened : Option (Nat × List α)
  buffer : List (List α)
  count : Nat
  sees : Bool
  ext : List Nat

namespace FileW
variable {α : Type}

/-- `FileCacheWriter.create` (`persistent.py` 299-349): a fresh empty directory. -/
def create (batchSize rowsPerFile : Nat) (sees : Bool := true) (ext : List Nat := []) : FileW α :=
  ⟨batchSize, rowsPerFile, [], none, [], 0, sees, ext⟩

/-- Indices of the parquet files in the directory: the complete files and the one being
written. -/
def names (s : FileW α) : List Nat :=
  s.closed.map Prod.fst ++ s.opened.toList.map Prod.fst

/-- Indices found by `get_dataset_files` (`persistent.py` 98-111). -/
def seenNames (s : FileW α) : List Nat := (if s.sees then s.names else []) ++ s.ext

/-- `_generate_next_filename` (`persistent.py` 499-506): `0`, or one more than the
largest existing index. (`{:06d}` is injective and is read back with `int`.) -/
def nextName (s : FileW α) : Nat :=
  match s.seenNames with
  | [] => 0
  | n :: ns => ns.foldl max n + 1

/-- The complete files left when a file with index `n` is created: opening an existing file for
writing truncates it. -/
def without (files : List (Nat × List α)) (n : Nat) : List (Nat × List α) :=
  files.filter (fun f => decide (f.1 ≠ n))

/-- `_get_or_create_writer` (`persistent.py` 508-517) followed by
`writer.write_batch(batch)`. -/
def emit (s : FileW α) (b : List α) : FileW α :=
  match s.opened with
  | some (n, c) => { s with opened := some (n, c ++ b) }
  | none => { s with closed := without s.closed s.nextName, opened := some (s.nextName, b) }

/-- `_close_writer` (`persistent.py` 519-523). -/
def closeWriter (s : FileW α) : FileW α :=
  match s.opened with
  | some f => { s with closed := s.closed ++ [f], opened := none }
  | none => s

/-- `flush` (`persistent.py` 463-477). -/
def flush (s : FileW α) : FileW α :=
  let s' := if s.buffer.isEmpty then s else s.emit s.buffer.flatten
  { s' with buffer := [], count := 0 }.closeWriter

/-- `write_batch` (`persistent.py` 413-446). -/
def writeBatch (s : FileW α) (b : List α) : FileW α :=
  let size := b.length + (s.buffer.map List.length).sum
  if size < s.batchSize ∧ s.count < s.rowsPerFile then
    { s with buffer := s.buffer ++ [b] }
  else
    let merged := if s.buffer.isEmpty then b else (s.buffer ++ [b]).flatten
    let s' := { s with buffer := [] }.emit merged
    let s'' := { s' with count := s.count + size }
    if s''.count ≥ s''.rowsPerFile then s''.flush else s''

/-- `write_table` (`persistent.py` 448-461): flush, then a file of its own. -/
def writeTable (s : FileW α) (t : List α) : FileW α :=
  let s' := s.flush
  { s' with closed := without s'.closed s'.nextName ++ [(s'.nextName, t)] }

/-- `write_rows` (`persistent.py` 379-394). -/
def writeRows (s : FileW α) (l : List α) : FileW α :=
  if l.isEmpty then s else s.writeBatch l

/-- `write_columns` (`persistent.py` 396-411). -/
def writeColumns (s : FileW α) : Option (List α) → FileW α
  | none => s
  | some c => s.writeBatch c

/-- One client call. -/
def step (s : FileW α) : WOp α → FileW α
  | .rows l => s.writeRows l
  | .columns c => s.writeColumns c
  | .batch b => s.writeBatch b
  | .table t => s.writeTable t
  | .flush => s.flush

/-- A history of client calls. -/
def run (s : FileW α) (ops : List (WOp α)) : FileW α := ops.foldl step s

/-- The reader's view of a directory listing of complete files: sorted by numeric
name (`iterate_ordered_fragments`, `persistent.py` 157-172), then each fragment as a
table (`iterate_tables` 174-194, no filter). -/
def orderedTables (listing : List (Nat × List α)) : List (List α) :=
  (listing.mergeSort (fun a b => decide (a.1 ≤ b.1))).map Prod.snd

end FileW

/-! ## Specification vocabulary (independent of the writers) -/

/-- Rows handed over by one call. -/
def WOp.payload {α : Type} : WOp α → List α
  | .rows l => l
  | .columns c => c.getD []
  | .batch b => b
  | .table t => t
  | .flush => []

/-- All rows handed over, in order. -/
def written {α : Type} (ops : List (WOp α)) : List α := ops.flatMap WOp.payload

/-- The calls that hand over at least one row. -/
def payloads {α : Type} (ops : List (WOp α)) : List (List α) :=
  (ops.map WOp.payload).filter (fun p => !p.isEmpty)

end Verif.Cache
