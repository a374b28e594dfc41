import Verif.Cache.Sort

/-!
# Readers that return arrays; in-place sort; counting
(`cache/ephemeral.py` 26-119, 274-287, `cache/persistent.py` 68-78, 174-256, 479-497)
-/

namespace Verif.Cache

/-- Exceptions raised by the array readers (`ephemeral.py` 62-119, `persistent.py` 196-256) and by
`count_rows` (`persistent.py` 68-74). -/
inductive ReadErr where
  /-- a column name that is not in the table (`Table.select`, `Table.__getitem__`, `to_table`) -/
  | key
  /-- `Table.__getitem__` with something that is neither a name nor a number -/
  | type
  /-- `np.column_stack` without any array -/
  | value
  /-- a parquet file without footer -/
  | invalid
deriving DecidableEq, Repr

/-- A `pa.Table`: column names and rows of cells in the order of the names. -/
structure Tbl (V : Type) where
  names : List String
  cells : List (List V)
deriving DecidableEq

section Arrays
variable {V : Type}

/-- `table.select(columns)` on rows given as functions of the column name; `none` keeps the columns
of the schema (`ephemeral.py` 58-60; `to_table(columns=...)`, `persistent.py` 194). -/
def selectCols (schema : List String) (columns : Option (List String)) (rows : List (String → V)) :
    Except ReadErr (Tbl V) :=
  match columns with
  | none => .ok ⟨schema, rows.map (fun r => schema.map r)⟩
  | some cs =>
    if cs.all schema.contains then .ok ⟨cs, rows.map (fun r => cs.map r)⟩ else .error .key

/-- `iterate_tables` (`ephemeral.py` 36-60; `persistent.py` 174-194): every table is filtered, then
the columns are selected. The fragments of a file cache come in the order of
`FileW.orderedTables`; `get_fragments(filter)` may leave out fragments whose statistics show that
no row passes (`skip`, `persistent.py` 168; nothing is left out in memory). An exception stops the
iteration; it does not depend on the data, so it comes at the first table. -/
def iterateTables (schema : List String) (columns : Option (List String))
    (accept : (String → V) → Bool) (skip : List (String → V) → Bool)
    (tables : List (List (String → V))) : Except ReadErr (List (Tbl V)) :=
  (tables.filter (fun t => !skip t)).mapM (fun t => selectCols schema columns (t.filter accept))

/-- `tbl[name]`: the column with this name; pyarrow raises `KeyError` when there is none or more than
one. -/
def Tbl.column (t : Tbl V) (name : String) : Except ReadErr (List V) :=
  if t.names.count name = 1 then .ok (t.cells.filterMap (fun row => row[t.names.idxOf name]?))
  else .error .key

/-- `tbl.column(i)`. -/
def Tbl.columnAt (t : Tbl V) (i : Nat) : List V := t.cells.filterMap (fun row => row[i]?)

/-- `np.column_stack` of one-dimensional arrays; row `i` holds the `i`-th entries. `ValueError` for
an empty list or for arrays of different lengths. (The promotion of integers to floating point in a
mixed list is the identity on values below 2^53 and is not modelled.) -/
def columnStack (cols : List (List V)) : Except ReadErr (List (List V)) :=
  match cols with
  | [] => .error .value
  | c :: cs =>
    if cs.all (fun d => d.length == c.length) then
      .ok ((List.range c.length).map (fun i => (c :: cs).filterMap (fun d => d[i]?)))
    else .error .value

/-- `iterate_arrays` (`ephemeral.py` 62-84; `persistent.py` 196-221). -/
def iterateArrays (schema : List String) (numeric : Option (List String))
    (accept : (String → V) → Bool) (skip : List (String → V) → Bool)
    (tables : List (List (String → V))) : Except ReadErr (List (List (List V))) := do
  let ts ← iterateTables schema numeric accept skip tables
  ts.mapM (fun t => columnStack ((List.range t.names.length).map t.columnAt))

/-- `set(columns) if columns else set()` (`ephemeral.py` 109-110; `persistent.py` 246-247): the
argument `None` and the empty list both give the empty set. -/
def orEmpty (columns : Option (List String)) : List String := columns.getD []

/-- `iterate_tables_with_arrays` (`ephemeral.py` 86-119; `persistent.py` 223-256). `order` is the
iteration order of a Python set of strings, which varies from process to process. Without numeric
columns the loop runs over `tbl.columns`, i.e. over arrays, which are not valid keys of the table. -/
def iterateTablesWithArrays (order : List String → List String) (schema : List String)
    (columns : Option (List String)) (numeric : Option (List String))
    (accept : (String → V) → Bool) (skip : List (String → V) → Bool)
    (tables : List (List (String → V))) : Except ReadErr (List (Tbl V × List (List V))) := do
  let ts ← iterateTables schema (some (order (orEmpty columns ++ orEmpty numeric))) accept skip tables
  ts.mapM fun t => do
    let cols ← match orEmpty numeric with
      | [] => match t.names with
        | [] => .ok []
        | _ :: _ => .error .type
      | ns => ns.mapM t.column
    let arr ← columnStack cols
    pure (t, arr)

end Arrays

section InPlace
variable {α K : Type} [LinearOrder K]

/-- `MemoryCacheWriter.sort_by` (`ephemeral.py` 274-287). -/
def MemW.sortTable (key : α → K) (s : MemW α) : MemW α :=
  { s.flush with table := sortBy key s.flush.table }

/-- `FileCacheWriter.sort_by` (`persistent.py` 479-497): every file that `get_dataset_files` finds is
read, sorted and written back under its name. Files of other directories that the path matches as a
pattern (`ext`) are sorted as well; their content is not part of this state. -/
def FileW.sortFiles (key : α → K) (s : FileW α) : FileW α :=
  { s.flush with
    closed := if s.flush.sees then s.flush.closed.map (fun f => (f.1, sortBy key f.2))
      else s.flush.closed }

/-- `MemoryCache.count_rows` (`ephemeral.py` 30-32): the buffer is not counted. -/
def MemW.countRows (s : MemW α) : Nat := s.table.length

/-- `MemoryCache.count_tables` (`ephemeral.py` 26-28). -/
def MemW.countTables (_ : MemW α) : Nat := 1

/-- `FileCache.count_rows` (`persistent.py` 68-74) through the dataset of the directory itself, which
includes a file that is still being written and has no footer yet. -/
def FileW.countRows (s : FileW α) : Except ReadErr Nat :=
  match s.opened with
  | some _ => .error .invalid
  | none => .ok (s.closed.map (fun f => f.2.length)).sum

/-- `FileCache.count_tables` (`persistent.py` 76-78) through the glob pattern. -/
def FileW.countTables (s : FileW α) : Nat := s.seenNames.length

/-- A call on a writer or a `sort_by` in between, with the sort key it uses. -/
inductive SOp (α K : Type) where
  | call (op : WOp α)
  | sort (key : α → K)

/-- One call on a file cache (`persistent.py` 379-497). -/
def FileW.sstep (s : FileW α) : SOp α K → FileW α
  | .call op => s.step op
  | .sort key => s.sortFiles key

/-- One call on a memory cache (`ephemeral.py` 176-287). -/
def MemW.sstep (s : MemW α) : SOp α K → MemW α
  | .call op => s.step op
  | .sort key => s.sortTable key

/-- Rows handed over in a history with sorts. -/
def SOp.payload : SOp α K → List α
  | .call op => op.payload
  | .sort _ => []

end InPlace
end Verif.Cache
