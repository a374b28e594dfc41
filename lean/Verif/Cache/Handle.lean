import Verif.Cache.Reader

/-!
# Readers while their writer goes on (`cache/ephemeral.py` 297-302, `cache/persistent.py` 533-536)

`to_reader` flushes the writer and returns a reader. The reader of a memory cache holds the table, an immutable object that
the writer replaces by longer ones. The reader of a file cache holds the path and looks at the directory whenever it is used.
-/

namespace Verif.Cache

/-- A writer of either kind. -/
inductive AnyW (α : Type) where
  | mem (w : MemW α)
  | file (w : FileW α)

/-- What a reader holds: the table (`ephemeral.py` 10-16, 300-302), or the path (`persistent.py` 17-29, 536). -/
inductive Handle (α : Type) where
  | mem (table : List α)
  | file

section
variable {α K : Type} [LinearOrder K]

/-- `to_reader` (`ephemeral.py` 297-302; `persistent.py` 533-536). -/
def AnyW.toReader : AnyW α → AnyW α × Handle α
  | .mem w => (.mem w.flush, .mem w.flush.table)
  | .file w => (.file w.flush, .file)

/-- A call on the writer, or `sort_by`. -/
def AnyW.sstep : AnyW α → SOp α K → AnyW α
  | .mem w, op => .mem (w.sstep op)
  | .file w, op => .file (w.sstep op)

/-- The tables that `iterate_tables` yields when the writer is in the given state (`ephemeral.py` 36-60: the one table of the
reader; `persistent.py` 157-194: the files in the directory, where a file that is being written has no footer yet, so that
`to_table` raises). -/
def Handle.tables : Handle α → AnyW α → Except ReadErr (List (List α))
  | .mem t, _ => .ok [t]
  | .file, .mem _ => .ok []
  | .file, .file w =>
    match w.opened with
    | some _ => .error .invalid
    | none => .ok (FileW.orderedTables w.closed)

end
end Verif.Cache
