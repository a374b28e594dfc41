import Mathlib.Data.List.Dedup
import Verif.Cache.Reader
import Verif.Cache.SortProps
import Verif.Cache.GlobProps

/-! # Properties C66, C67: arrays read from a cache, in-place sort, counts -/

namespace Verif.Cache

section Arrays
variable {V : Type}

/-- An iteration order of Python sets of strings: every element once. -/
def IsSetOrder (order : List String → List String) : Prop :=
  ∀ l, (order l).Nodup ∧ ∀ x, x ∈ order l ↔ x ∈ l

/-- Only tables without accepted rows are left out. -/
def SkipsOnlyEmpty (accept : (String → V) → Bool) (skip : List (String → V) → Bool) : Prop :=
  ∀ t, skip t = true → t.filter accept = []

theorem mapM_ok' {A B : Type} {l : List A} {f : A → Except ReadErr B} {g : A → B}
    (h : ∀ a ∈ l, f a = .ok (g a)) : l.mapM f = .ok (l.map g) := by
  induction l with
  | nil => rfl
  | cons a l ih =>
    rw [List.mapM_cons, h a (by simp), ih (fun x hx => h x (by simp [hx]))]
    rfl

theorem mapM_err {A B : Type} {l : List A} {f : A → Except ReadErr B} {e : ReadErr}
    (hl : l ≠ []) (h : ∀ a ∈ l, f a = .error e) : l.mapM f = .error e := by
  cases l with
  | nil => exact absurd rfl hl
  | cons a l => rw [List.mapM_cons, h a (by simp)]; rfl

theorem column_eq {names : List String} (hn : names.Nodup) {c : String} (hc : c ∈ names)
    (rows : List (String → V)) :
    (Tbl.mk names (rows.map (fun r => names.map r))).column c = .ok (rows.map (fun r => r c)) := by
  unfold Tbl.column
  rw [if_pos (List.count_eq_one_of_mem hn hc)]
  congr 1
  dsimp only
  rw [List.filterMap_map]
  rw [← List.filterMap_eq_map]
  apply List.filterMap_congr
  intro r _
  have hlt : names.idxOf c < names.length := List.idxOf_lt_length_of_mem hc
  simp [List.getElem?_map, List.getElem?_eq_getElem hlt]

theorem columnAt_eq {names : List String} (i : Nat) (hi : i < names.length)
    (rows : List (String → V)) :
    (Tbl.mk names (rows.map (fun r => names.map r))).columnAt i
      = rows.map (fun r => r names[i]) := by
  unfold Tbl.columnAt
  dsimp only
  rw [List.filterMap_map, ← List.filterMap_eq_map]
  apply List.filterMap_congr
  intro r _
  simp [List.getElem?_map, List.getElem?_eq_getElem hi]

theorem columnStack_eq {cs : List String} (hcs : cs ≠ []) (rows : List (String → V)) :
    columnStack (cs.map (fun c => rows.map (fun r => r c))) = .ok (rows.map (fun r => cs.map r)) := by
  cases cs with
  | nil => exact absurd rfl hcs
  | cons c cs =>
    have h : (cs.map (fun c => rows.map (fun r => r c))).all
        (fun d => d.length == (rows.map (fun r => r c)).length) = true := by simp
    simp only [List.map_cons, columnStack, h, if_true]
    congr 1
    apply List.ext_getElem
    · simp
    · intro i h1 h2
      have hi : i < rows.length := by simpa using h2
      simp only [List.getElem_map, List.getElem_range]
      rw [← List.map_cons (f := fun c => rows.map (fun r => r c)), List.filterMap_map,
        ← List.map_cons (f := rows[i]), ← List.filterMap_eq_map]
      apply List.filterMap_congr
      intro x _
      simp [List.getElem?_eq_getElem hi]

theorem iterateTables_eq {schema : List String} {cs : List String} (h : ∀ c ∈ cs, c ∈ schema)
    (accept : (String → V) → Bool) (skip : List (String → V) → Bool)
    (tables : List (List (String → V))) :
    iterateTables schema (some cs) accept skip tables
      = .ok ((tables.filter (fun t => !skip t)).map
          (fun t => ⟨cs, (t.filter accept).map (fun r => cs.map r)⟩)) := by
  unfold iterateTables
  apply mapM_ok'
  intro t _
  have : cs.all schema.contains = true := by simpa using h
  simp [selectCols, this]

theorem flatten_skip {accept : (String → V) → Bool} {skip : List (String → V) → Bool}
    (hs : SkipsOnlyEmpty accept skip) (tables : List (List (String → V))) :
    ((tables.filter (fun t => !skip t)).map (fun t => t.filter accept)).flatten
      = tables.flatten.filter accept := by
  induction tables with
  | nil => rfl
  | cons t ts ih =>
    rw [List.flatten_cons, List.filter_append, ← ih]
    cases h : skip t with
    | true => simp [h, hs t h]
    | false => simp [h]

/-- **C66 (tables with arrays).** Whatever order the interpreter iterates its sets in: each table
holds exactly the requested columns, each once; the array next to it has one row per row of the
table and its columns are the numeric columns in the order the caller gave; the rows of all tables
are the accepted rows of the cache in order. -/
theorem C66_tables_with_arrays {order : List String → List String} (ho : IsSetOrder order)
    {schema : List String} {columns : Option (List String)} {numeric : List String}
    (hne : numeric ≠ []) (hc : ∀ c ∈ columns.getD [], c ∈ schema) (hn : ∀ c ∈ numeric, c ∈ schema)
    {accept : (String → V) → Bool} {skip : List (String → V) → Bool}
    (hs : SkipsOnlyEmpty accept skip) (tables : List (List (String → V))) :
    ∃ (names : List String) (parts : List (List (String → V))),
      names.Nodup ∧ (∀ c, c ∈ names ↔ c ∈ columns.getD [] ∨ c ∈ numeric) ∧
      parts.flatten = tables.flatten.filter accept ∧
      iterateTablesWithArrays order schema columns (some numeric) accept skip tables
        = .ok (parts.map (fun p => (⟨names, p.map (fun r => names.map r)⟩,
            p.map (fun r => numeric.map r)))) := by
  refine ⟨order (columns.getD [] ++ numeric),
    (tables.filter (fun t => !skip t)).map (fun t => t.filter accept), (ho _).1, ?_,
    flatten_skip hs tables, ?_⟩
  · intro c; rw [(ho _).2, List.mem_append]
  · generalize hnames : order (columns.getD [] ++ numeric) = names
    have hmem : ∀ c, c ∈ names ↔ c ∈ columns.getD [] ∨ c ∈ numeric := by
      intro c; rw [← hnames, (ho _).2, List.mem_append]
    have hnd : names.Nodup := hnames ▸ (ho _).1
    unfold iterateTablesWithArrays orEmpty
    simp only [Option.getD_some, hnames]
    rw [iterateTables_eq (fun c h => ((hmem c).1 h).elim (hc c) (hn c))]
    simp only [bind, Except.bind]
    obtain ⟨n, ns, rfl⟩ := List.exists_cons_of_ne_nil hne
    simp only [List.map_map]
    rw [mapM_ok' (g := fun t : Tbl V => (t, (t.cells.map (fun row =>
        (n :: ns).filterMap (fun c => row[names.idxOf c]?)))))]
    · rw [List.map_map]
      congr 1
      apply List.map_congr_left
      intro t _
      simp only [Function.comp_apply]
      congr 1
      rw [List.map_map]
      apply List.map_congr_left
      intro r _
      simp only [Function.comp_apply]
      rw [← List.filterMap_eq_map]
      apply List.filterMap_congr
      intro c hcm
      have hlt : names.idxOf c < names.length :=
        List.idxOf_lt_length_of_mem ((hmem c).2 (Or.inr hcm))
      simp [List.getElem?_map, List.getElem?_eq_getElem hlt]
    · intro t ht
      obtain ⟨u, _, rfl⟩ := List.mem_map.1 ht
      dsimp only
      rw [mapM_ok' (g := fun c => (u.filter accept).map (fun r => r c))
        (fun c hcm => column_eq hnd ((hmem c).2 (Or.inr hcm)) _)]
      dsimp only
      rw [columnStack_eq (by simp)]
      simp only [pure, Except.pure]
      congr 2
      rw [List.map_map]
      apply List.map_congr_left
      intro r _
      simp only [Function.comp_apply]
      symm
      rw [← List.filterMap_eq_map]
      apply List.filterMap_congr
      intro c hcm
      have hlt : names.idxOf c < names.length :=
        List.idxOf_lt_length_of_mem ((hmem c).2 (Or.inr hcm))
      simp [List.getElem?_map, List.getElem?_eq_getElem hlt]

/-- **C66 (arrays).** `iterate_arrays` gives the accepted rows in order, with the columns in the order
requested, or in the order of the schema. -/
theorem C66_arrays {schema : List String} (hsch : schema ≠ []) {numeric : Option (List String)}
    (hne : numeric ≠ some []) (hn : ∀ c ∈ numeric.getD [], c ∈ schema)
    {accept : (String → V) → Bool} {skip : List (String → V) → Bool}
    (hs : SkipsOnlyEmpty accept skip) (tables : List (List (String → V))) :
    ∃ parts : List (List (String → V)),
      parts.flatten = tables.flatten.filter accept ∧
      iterateArrays schema numeric accept skip tables
        = .ok (parts.map (fun p => p.map (fun r => (numeric.getD schema).map r))) := by
  refine ⟨(tables.filter (fun t => !skip t)).map (fun t => t.filter accept),
    flatten_skip hs tables, ?_⟩
  have key : ∀ cs : List String, cs ≠ [] →
      ((tables.filter (fun t => !skip t)).map
        (fun t => (⟨cs, (t.filter accept).map (fun r => cs.map r)⟩ : Tbl V))).mapM
        (fun t => columnStack ((List.range t.names.length).map t.columnAt))
      = .ok (((tables.filter (fun t => !skip t)).map (fun t => t.filter accept)).map
          (fun p => p.map (fun r => cs.map r))) := by
    intro cs hcs
    rw [mapM_ok' (g := fun t : Tbl V => t.cells)]
    · simp [List.map_map, Function.comp_def]
    · intro t ht
      obtain ⟨u, _, rfl⟩ := List.mem_map.1 ht
      dsimp only
      rw [← columnStack_eq hcs]
      congr 1
      apply List.ext_getElem
      · simp
      · intro i h1 h2
        have hi : i < cs.length := by simpa using h2
        simp only [List.getElem_map, List.getElem_range]
        exact columnAt_eq i hi _
  unfold iterateArrays
  cases numeric with
  | some cs =>
    rw [iterateTables_eq (cs := cs) hn]
    exact key cs (fun h => hne (by rw [h]))
  | none =>
    have : iterateTables schema none accept skip tables
        = .ok ((tables.filter (fun t => !skip t)).map
          (fun t => ⟨schema, (t.filter accept).map (fun r => schema.map r)⟩)) := by
      unfold iterateTables
      apply mapM_ok'
      intro t _
      rfl
    rw [this]
    exact key schema hsch

/-- The full claim of the documentation: `numeric_columns` is optional for tables with arrays, too. -/
def NumericOptional : Prop :=
  ∀ (order : List String → List String), IsSetOrder order →
    ∀ (schema columns : List String), columns ≠ [] → (∀ c ∈ columns, c ∈ schema) →
      ∀ tables : List (List (String → Rat)), ∃ out,
        iterateTablesWithArrays order schema (some columns) none (fun _ => true) (fun _ => false)
          tables = .ok out

/-- **C66, violated for omitted numeric columns**: for every cache with a table and every request
the call raises an exception. -/
theorem C66_numeric_required {order : List String → List String}
    {schema : List String} {columns : Option (List String)} {numeric : Option (List String)}
    (hz : numeric = none ∨ numeric = some []) (accept : (String → V) → Bool)
    (tables : List (List (String → V))) (ht : tables ≠ []) :
    ∃ e, iterateTablesWithArrays order schema columns numeric accept (fun _ => false) tables
      = .error e := by
  have hz' : orEmpty numeric = [] := by rcases hz with rfl | rfl <;> rfl
  unfold iterateTablesWithArrays
  rw [hz']
  generalize order (orEmpty columns ++ []) = cs
  by_cases h : ∀ c ∈ cs, c ∈ schema
  · rw [iterateTables_eq h]
    simp only [bind, Except.bind]
    cases cs with
    | nil =>
      refine ⟨.value, mapM_err (by simpa using ht) ?_⟩
      intro t htm
      obtain ⟨u, _, rfl⟩ := List.mem_map.1 htm
      rfl
    | cons c cs =>
      refine ⟨.type, mapM_err (by simpa using ht) ?_⟩
      intro t htm
      obtain ⟨u, _, rfl⟩ := List.mem_map.1 htm
      rfl
  · refine ⟨.key, ?_⟩
    have : iterateTables schema (some cs) accept (fun _ => false) tables = .error .key := by
      unfold iterateTables
      apply mapM_err (by simpa using ht)
      intro t _
      have : cs.all schema.contains = false := by
        rw [Bool.eq_false_iff]; simpa using h
      simp [selectCols, this]
    rw [this]; rfl

theorem isSetOrder_dedup : IsSetOrder List.dedup :=
  fun _ => ⟨List.nodup_dedup _, fun _ => List.mem_dedup⟩

theorem C66_violation : ¬ NumericOptional := by
  intro h
  obtain ⟨out, ho⟩ := h List.dedup isSetOrder_dedup ["a"] ["a"] (by simp) (by simp) [[]]
  obtain ⟨e, he⟩ := C66_numeric_required (V := Rat) (order := List.dedup) (schema := ["a"])
    (columns := some ["a"]) (numeric := none) (Or.inl rfl) (fun _ => true) [[]] (by simp)
  rw [ho] at he; cases he

/-- A set order that differs from the order of the request; the array keeps the order of the
request. -/
example : iterateTablesWithArrays (V := Nat) (fun l => l.dedup.reverse) ["a", "b", "c"]
    (some ["c"]) (some ["b", "a"]) (fun r => r "a" != 2) (fun _ => false)
    [[fun c => if c = "a" then 1 else if c = "b" then 10 else 100], [],
      [fun c => if c = "a" then 2 else 20, fun c => if c = "a" then 3 else 30]]
    = .ok [(⟨["a", "b", "c"], [[1, 10, 100]]⟩, [[10, 1]]), (⟨["a", "b", "c"], []⟩, []),
        (⟨["a", "b", "c"], [[3, 30, 30]]⟩, [[30, 3]])] := by decide +kernel

end Arrays

section InPlace
variable {α K : Type} [LinearOrder K]

theorem sortBy_perm (key : α → K) (l : List α) : (sortBy key l).Perm l := List.mergeSort_perm _ _

theorem sortBy_length (key : α → K) (l : List α) : (sortBy key l).length = l.length :=
  (sortBy_perm key l).length_eq

/-! ### Counting -/

/-- **C67 (row count on disk).** After any history and a flush `count_rows` is the number of rows
handed over, so `finalize` reports an empty cache exactly when nothing was written. -/
theorem C67_count_rows_file (batchSize rowsPerFile : Nat) (ext : List Nat) (ops : List (WOp α)) :
    ((FileW.create batchSize rowsPerFile true ext).run (ops ++ [.flush])).countRows
      = .ok (written ops).length := by
  obtain ⟨ho, _, hr⟩ := C01_file_roundtrip batchSize rowsPerFile ext ops
  have i := FileW.inv_run batchSize rowsPerFile ext (ops ++ [.flush])
  generalize (FileW.create batchSize rowsPerFile true ext).run (ops ++ [WOp.flush]) = s at *
  have hnames : (s.closed.map Prod.fst).Pairwise (· < ·) := by
    simpa [FileW.names, ho] using i.sorted
  have := hr s.closed (List.Perm.refl _)
  rw [FileW.orderedTables_perm hnames (List.Perm.refl _)] at this
  rw [FileW.countRows, ho, ← this, List.length_flatten, List.map_map]
  rfl

/-- **C67 (row count in memory).** -/
theorem C67_count_rows_mem (batchSize : Nat) (ops : List (WOp α)) :
    ((MemW.create batchSize).run (ops ++ [.flush])).countRows = (written ops).length := by
  have := (C02_mem_multiset_partial batchSize ops).length_eq
  rw [← this]
  simp [MemW.run, MemW.step, MemW.read, MemW.countRows]

/-- **C67 (table count).** For a path that is no pattern `count_tables` is the number of tables the
reader yields. -/
theorem C67_count_tables (batchSize rowsPerFile : Nat) (ops : List (WOp α))
    (listing : List (Nat × List α)) :
    let s := (FileW.create batchSize rowsPerFile).run (ops ++ [.flush])
    listing.Perm s.closed → s.countTables = (FileW.orderedTables listing).length := by
  intro s hl
  have ho := (C01_file_roundtrip batchSize rowsPerFile [] ops).1
  have hext : ∀ (ops : List (WOp α)) (s : FileW α), (s.run ops).ext = s.ext := by
    have hem : ∀ (s : FileW α) b, (s.emit b).ext = s.ext := by
      intro s b; unfold FileW.emit; split <;> rfl
    have hcl : ∀ s : FileW α, s.closeWriter.ext = s.ext := by
      intro s; unfold FileW.closeWriter; split <;> rfl
    have hfl : ∀ s : FileW α, s.flush.ext = s.ext := by
      intro s; unfold FileW.flush; rw [hcl]; dsimp only; split
      · rfl
      · exact hem _ _
    have hwb : ∀ (s : FileW α) b, (s.writeBatch b).ext = s.ext := by
      intro s b; unfold FileW.writeBatch; dsimp only; split
      · rfl
      · generalize (if s.buffer.isEmpty = true then b else (s.buffer ++ [b]).flatten) = m
        split
        · rw [hfl]; exact hem _ _
        · exact hem _ _
    intro ops
    induction ops with
    | nil => intro s; rfl
    | cons op ops ih =>
      intro s
      refine (ih (s.step op)).trans ?_
      cases op with
      | rows l => simp only [FileW.step, FileW.writeRows]; split; rfl; exact hwb s l
      | columns c => cases c with
        | none => rfl
        | some c => exact hwb s c
      | batch b => exact hwb s b
      | table t => exact hfl s
      | flush => exact hfl s
  have hsee : s.sees = true := (FileW.inv_run batchSize rowsPerFile [] (ops ++ [.flush])).see
  have hx : s.ext = [] := hext _ _
  have ho' : s.opened = none := ho
  simp [FileW.countTables, FileW.seenNames, FileW.names, FileW.orderedTables, hsee, hx, ho', hl.length_eq]

/-- **C67 (table count in memory).** The reader of a memory cache yields `count_tables` tables, also when the
cache or the selection is empty. -/
theorem C67_count_tables_mem {V : Type} (schema : List String) (columns : Option (List String)) (accept : (String → V) → Bool)
    (s : MemW (String → V)) {ts : List (Tbl V)} (h : iterateTables schema columns accept (fun _ => false) [s.table] = .ok ts) :
    s.countTables = ts.length := by
  unfold iterateTables at h
  simp only [Bool.not_false, List.filter_true, List.mapM_cons, List.mapM_nil] at h
  rcases e : selectCols schema columns (s.table.filter accept) with x | x
  · rw [e] at h; exact absurd h (by simp [bind, Except.bind])
  · rw [e] at h
    have : [x] = ts := Except.ok.inj h
    rw [← this]; rfl

/-- An empty memory cache yields one table, which has no rows. -/
example : ∃ ts, iterateTables (V := Nat) ["a"] none (fun _ => true) (fun _ => false) [(MemW.create 2).table] = .ok ts ∧
    (MemW.create (α := String → Nat) 2).countTables = ts.length ∧ ts.map Tbl.cells = [[]] := ⟨_, rfl, rfl, rfl⟩

/-- **C67 (shortcut of the external sort).** `sort` copies a single table without merging when
`count_tables` says so. Whatever the path matches as a pattern, it says so only when there is at most
one table to read. -/
theorem C67_shortcut (batchSize rowsPerFile : Nat) (sees : Bool) (ext : List Nat)
    (ops : List (WOp α)) :
    let s := (FileW.create batchSize rowsPerFile sees ext).run ops
    s.countTables = 1 → (FileW.orderedTables s.closed).length ≤ 1 := by
  intro s h
  have hl : (FileW.orderedTables s.closed).length = s.closed.length := by simp [FileW.orderedTables]
  rw [hl]
  cases sees with
  | false => exact Glob.blind_one_file batchSize rowsPerFile ext ops
  | true =>
    have hsee : s.sees = true := (FileW.inv_run batchSize rowsPerFile ext ops).see
    simp only [FileW.countTables, FileW.seenNames, hsee, if_true, FileW.names, List.length_append,
      List.length_map] at h
    omega

/-- The full statement about the number of tables. -/
def CountsTables (p : String) : Prop :=
  ∀ (fs : Glob.Parent) (b r : Nat) (ops : List (WOp Nat)),
    let s := (Glob.writerAt p fs b r).run (ops ++ [.flush])
    s.countTables = (FileW.orderedTables s.closed).length

/-- **C67, violated for paths that are patterns**: next to a cache `run1` the cache in `run?` counts
the files of both. -/
theorem C67_count_violation : ¬ CountsTables "run?" := by
  intro h
  have := h [("run1", [0])] 1 1 []
  simp [FileW.orderedTables] at this
  revert this
  decide

/-! ### `sort_by` -/

theorem inv_sortFiles (key : α → K) {s : FileW α} {h} (i : FileW.Inv s h) :
    FileW.Inv (s.sortFiles key) ((s.flush.closed.map (fun f => sortBy key f.2))) ∧
      (s.sortFiles key).opened = none ∧ (s.sortFiles key).buffer = [] := by
  have j := FileW.inv_flush i
  have ho := FileW.flush_opened s
  have hb := FileW.flush_buffer s
  have hc := FileW.flush_count s
  refine ⟨⟨⟨s.flush.closed.map (fun f => [sortBy key f.2]), [], ?_, ?_, ?_, ?_⟩, ?_, ?_, ?_, ?_, ?_⟩,
    ?_, ?_⟩
  · simp [FileW.sortFiles, j.see, Function.comp_def]
  · simp [FileW.sortFiles, ho]
  · simp
  · simp only [FileW.sortFiles, hb]
    simp [← List.flatMap_def]
    induction s.flush.closed with
    | nil => rfl
    | cons a l ih => simp [ih]
  · have := j.sorted
    simp only [FileW.names, ho] at this
    simp only [FileW.names, FileW.sortFiles, ho, j.see, if_true, List.map_map]
    simpa [Function.comp_def] using this
  · simp [FileW.sortFiles, ho, hc]
  · right; simp [FileW.sortFiles, ho]
  · right; simp [FileW.sortFiles, hb]
  · simpa [FileW.sortFiles] using j.see
  · simp [FileW.sortFiles, ho]
  · simp [FileW.sortFiles, hb]

/-- **C67 (`sort_by` on disk).** After any history, for any order of the directory listing: the reader
sees the same tables as before, each sorted by the key with the order of rows of equal key kept. Rows
written afterwards follow in order; they are not sorted in. -/
theorem C67_sort_file (batchSize rowsPerFile : Nat) (ext : List Nat) (key : α → K)
    (ops more : List (WOp α)) :
    let s := (FileW.create batchSize rowsPerFile true ext).run ops
    (∀ listing, listing.Perm (s.sortFiles key).closed →
      ∃ tables : List (List α), FileW.orderedTables listing = tables ∧
        tables.length = (FileW.orderedTables s.flush.closed).length ∧
        ∀ t ∈ (FileW.orderedTables s.flush.closed).zip tables,
          t.2.Perm t.1 ∧ SortedBy key t.2 ∧ StableOf key t.1 t.2) ∧
    (∀ listing, listing.Perm ((s.sortFiles key).run (more ++ [.flush])).closed →
      (FileW.orderedTables listing).flatten
        = (FileW.orderedTables (s.sortFiles key).closed).flatten ++ written more) := by
  intro s
  have i : FileW.Inv s (payloads ops) := FileW.inv_run batchSize rowsPerFile ext ops
  obtain ⟨j, ho, hb⟩ := inv_sortFiles key i
  have jf := FileW.inv_flush i
  have hnf : (s.flush.closed.map Prod.fst).Pairwise (· < ·) := by
    simpa [FileW.names, FileW.flush_opened] using jf.sorted
  have hns : ((s.sortFiles key).closed.map Prod.fst).Pairwise (· < ·) := by
    simpa [FileW.names, ho] using j.sorted
  have hcl : (s.sortFiles key).closed.map Prod.snd
      = (s.flush.closed.map Prod.snd).map (sortBy key) := by
    simp [FileW.sortFiles, jf.see, Function.comp_def]
  refine ⟨?_, ?_⟩
  · intro listing hl
    refine ⟨_, rfl, ?_, ?_⟩
    · rw [FileW.orderedTables_perm hns hl, FileW.orderedTables_perm hnf (List.Perm.refl _), hcl]
      simp
    · rw [FileW.orderedTables_perm hns hl, FileW.orderedTables_perm hnf (List.Perm.refl _), hcl]
      intro t ht
      rw [List.zip_map_right] at ht
      obtain ⟨⟨u, v⟩, huv, rfl⟩ := List.mem_map.1 ht
      have huv' : u = v := by
        rw [List.mem_iff_getElem] at huv
        obtain ⟨n, hn, he⟩ := huv
        simp at he; exact he.1.symm.trans he.2
      subst huv'
      exact ⟨sortBy_perm key u, sortBy_sorted key u, sortBy_stable key u⟩
  · intro listing hl
    have e : (s.sortFiles key).run (more ++ [.flush]) = ((s.sortFiles key).run more).flush := by
      simp [FileW.run, FileW.step]
    rw [e] at hl
    have k := FileW.inv_flush (FileW.inv_run_aux more j)
    have ko := FileW.flush_opened ((s.sortFiles key).run more)
    have hnk : (((s.sortFiles key).run more).flush.closed.map Prod.fst).Pairwise (· < ·) := by
      simpa [FileW.names, ko] using k.sorted
    rw [FileW.orderedTables_perm hnk hl, FileW.orderedTables_perm hns (List.Perm.refl _), hcl]
    obtain ⟨⟨G, go, h1, h2, h3, h4⟩, _⟩ := k
    have : go = [] := h3 ko
    subst this
    rw [FileW.flush_buffer] at h4
    rw [← h1, ← List.flatten_flatten]
    have h4' : G.flatten = s.flush.closed.map (fun f => sortBy key f.2) ++ payloads more := by
      simpa using h4
    rw [h4', List.flatten_append, payloads_flatten, List.map_map]
    rfl

/-- **C67 (`sort_by` in memory).** The reader sees all rows in the stable order of the key; rows
written afterwards follow. -/
theorem C67_sort_mem (key : α → K) (s : MemW α) (more : List (WOp α)) :
    (s.sortTable key).read.Perm s.read ∧ SortedBy key (s.sortTable key).read ∧
      StableOf key s.read (s.sortTable key).read ∧
      ((s.sortTable key).run more).read
        = (s.sortTable key).read ++ ((MemW.create s.batchSize).run more).read := by
  have hb : (s.sortTable key).buffer = [] := MemW.flush_buffer s
  have hbs : (s.sortTable key).batchSize = s.batchSize := by
    simp only [MemW.sortTable, MemW.flush]; split <;> rfl
  have hr : (s.sortTable key).read = sortBy key s.read := by
    rw [MemW.read, MemW.flush_table, hb]; simp [MemW.sortTable, MemW.read]
  refine ⟨hr ▸ sortBy_perm key _, hr ▸ sortBy_sorted key _, hr ▸ sortBy_stable key _, ?_⟩
  have h0 : (s.sortTable key).read = (s.sortTable key).table := by
    rw [MemW.read, MemW.flush_table, hb]; simp
  rw [h0]
  generalize s.sortTable key = u at *
  -- a table in front does not influence later calls
  have hstep : ∀ (p t : List α) (b : Nat) (buf : List (List α)) (op : WOp α),
      (MemW.mk b (p ++ t) buf).step op
        = { (MemW.mk b t buf).step op with table := p ++ ((MemW.mk b t buf).step op).table } := by
    intro p t b buf op
    have hwb : ∀ x, (MemW.mk b (p ++ t) buf).writeBatch x
        = { (MemW.mk b t buf).writeBatch x with
            table := p ++ ((MemW.mk b t buf).writeBatch x).table } := by
      intro x
      simp only [MemW.writeBatch, MemW.writeTable]
      split
      · rfl
      · split <;> simp
    cases op with
    | rows l => simp only [MemW.step, MemW.writeRows]; split; rfl; exact hwb l
    | columns c => cases c with
      | none => rfl
      | some c => exact hwb c
    | batch x => exact hwb x
    | table x => simp [MemW.step, MemW.writeTable]
    | flush => simp only [MemW.step, MemW.flush]; split <;> simp
  have hrun : ∀ (ops : List (WOp α)) (p t : List α) (b : Nat) (buf : List (List α)),
      ((MemW.mk b (p ++ t) buf).run ops).read = p ++ ((MemW.mk b t buf).run ops).read := by
    intro ops
    induction ops with
    | nil =>
      intro p t b buf
      simp [MemW.run, MemW.read, MemW.flush_table]
    | cons op ops ih =>
      intro p t b buf
      simp only [MemW.run, List.foldl_cons] at ih ⊢
      rw [hstep]
      generalize (MemW.mk b t buf).step op = v
      exact ih p v.table v.batchSize v.buffer
  have hu : u = MemW.mk s.batchSize (u.table ++ []) [] := by
    cases u; simp_all
  rw [hu, hrun]
  simp [MemW.create]

/-- Rows a state will give back. -/
theorem perm_flatten {l l' : List (List α)} (h : List.Forall₂ List.Perm l l') :
    l.flatten.Perm l'.flatten := by
  induction h with
  | nil => exact List.Perm.refl _
  | cons h _ ih => exact h.append ih

/-- **C67 (nothing is lost).** In any interleaving of calls and sorts, of both kinds of caches, the
rows read back after a final flush are the rows handed over. -/
theorem C67_interleaved (batchSize rowsPerFile : Nat) (ext : List Nat) (ops : List (SOp α K)) :
    (∀ listing, listing.Perm
        (ops.foldl FileW.sstep (FileW.create batchSize rowsPerFile true ext)).flush.closed →
      (FileW.orderedTables listing).flatten.Perm (ops.flatMap SOp.payload)) ∧
    ((ops.foldl MemW.sstep (MemW.create batchSize)).read).Perm (ops.flatMap SOp.payload) := by
  constructor
  · have key : ∀ (ops : List (SOp α K)) (s : FileW α) (h : List (List α)), FileW.Inv s h →
        ∃ h', FileW.Inv (ops.foldl FileW.sstep s) h' ∧
          h'.flatten.Perm (h.flatten ++ ops.flatMap SOp.payload) := by
      intro ops
      induction ops with
      | nil => intro s h i; exact ⟨h, i, by simp⟩
      | cons op ops ih =>
        intro s h i
        cases op with
        | call op =>
          obtain ⟨h', i', p⟩ := ih _ _ (FileW.inv_step i op)
          exact ⟨h', i', by simpa [SOp.payload] using p⟩
        | sort k =>
          obtain ⟨h', i', p⟩ := ih _ _ (inv_sortFiles k i).1
          refine ⟨h', i', p.trans ?_⟩
          simp only [List.flatMap_cons, SOp.payload, List.nil_append]
          apply List.Perm.append_right
          -- sorted files against the rows before
          obtain ⟨⟨G, go, h1, h2, h3, h4⟩, _⟩ := FileW.inv_flush i
          have : go = [] := h3 (FileW.flush_opened s)
          subst this
          rw [FileW.flush_buffer] at h4
          have h4' : G.flatten = h := by simpa using h4
          rw [← h4', List.flatten_flatten, h1]
          apply perm_flatten
          clear h1
          induction s.flush.closed with
          | nil => exact .nil
          | cons a l ih => exact .cons (sortBy_perm k a.2) ih
    intro listing hl
    obtain ⟨h', i', p⟩ := key ops _ _ (FileW.inv_create batchSize rowsPerFile ext)
    have j := FileW.inv_flush i'
    generalize ops.foldl FileW.sstep (FileW.create batchSize rowsPerFile true ext) = s at *
    have hn : (s.flush.closed.map Prod.fst).Pairwise (· < ·) := by
      simpa [FileW.names, FileW.flush_opened] using j.sorted
    rw [FileW.orderedTables_perm hn hl]
    obtain ⟨⟨G, go, h1, h2, h3, h4⟩, _⟩ := j
    have : go = [] := h3 (FileW.flush_opened s)
    subst this
    rw [FileW.flush_buffer] at h4
    have h4' : G.flatten = h' := by simpa using h4
    rw [← h1, ← List.flatten_flatten, h4']
    simpa using p
  · have key : ∀ (ops : List (SOp α K)) (s : MemW α),
        ((ops.foldl MemW.sstep s).read).Perm (s.read ++ ops.flatMap SOp.payload) := by
      intro ops
      induction ops with
      | nil => intro s; simp
      | cons op ops ih =>
        intro s
        refine (ih (s.sstep op)).trans ?_
        rw [List.flatMap_cons, ← List.append_assoc]
        apply List.Perm.append_right
        cases op with
        | call op =>
          have := MemW.step_contents_perm s op
          simpa [MemW.read, MemW.flush_table, MemW.sstep, SOp.payload] using this
        | sort k =>
          simpa [MemW.sstep, SOp.payload] using (C67_sort_mem k s []).1
    simpa [MemW.create, MemW.read, MemW.flush] using key ops (MemW.create batchSize)

/-- **C67 (a sort after anything).** After any interleaving of calls and earlier sorts, a `sort_by` leaves each table of the
files, and the table in memory, sorted by its key and otherwise in the order it had before. -/
theorem C67_sort_last (batchSize rowsPerFile : Nat) (ext : List Nat) (ops : List (SOp α K)) (key : α → K) :
    (∀ before after, before.Perm (ops.foldl FileW.sstep (FileW.create batchSize rowsPerFile true ext)).flush.closed →
      after.Perm ((ops ++ [SOp.sort key]).foldl FileW.sstep (FileW.create batchSize rowsPerFile true ext)).flush.closed →
      List.Forall₂ (fun u v => v.Perm u ∧ SortedBy key v ∧ StableOf key u v) (FileW.orderedTables before) (FileW.orderedTables after)) ∧
    let u := (ops.foldl MemW.sstep (MemW.create batchSize)).read
    let v := ((ops ++ [SOp.sort key]).foldl MemW.sstep (MemW.create batchSize)).read
    v.Perm u ∧ SortedBy key v ∧ StableOf key u v := by
  constructor
  · have hinv : ∀ (ops : List (SOp α K)) (s : FileW α) (h : List (List α)), FileW.Inv s h → ∃ h', FileW.Inv (ops.foldl FileW.sstep s) h' := by
      intro ops
      induction ops with
      | nil => intro s h i; exact ⟨h, i⟩
      | cons op ops ih =>
        intro s h i
        cases op with
        | call op => exact ih _ _ (FileW.inv_step i op)
        | sort k => exact ih _ _ (inv_sortFiles k i).1
    intro before after hb ha
    obtain ⟨h, i⟩ := hinv ops _ _ (FileW.inv_create batchSize rowsPerFile ext)
    rw [List.foldl_append] at ha
    generalize ops.foldl FileW.sstep (FileW.create batchSize rowsPerFile true ext) = s at *
    obtain ⟨j, ho, hbuf⟩ := inv_sortFiles key i
    change after.Perm (s.sortFiles key).flush.closed at ha
    have jf := FileW.inv_flush i
    have js := FileW.inv_flush j
    have hfl : (s.sortFiles key).flush.closed = (s.sortFiles key).closed := by
      simp [FileW.flush, FileW.closeWriter, ho, hbuf]
    have hnf : (s.flush.closed.map Prod.fst).Pairwise (· < ·) := by
      simpa [FileW.names, FileW.flush_opened] using jf.sorted
    have hns : ((s.sortFiles key).flush.closed.map Prod.fst).Pairwise (· < ·) := by
      simpa [FileW.names, FileW.flush_opened] using js.sorted
    have hcl : (s.sortFiles key).closed.map Prod.snd = (s.flush.closed.map Prod.snd).map (sortBy key) := by
      simp [FileW.sortFiles, jf.see, Function.comp_def]
    rw [FileW.orderedTables_perm hnf hb, FileW.orderedTables_perm hns ha, hfl, hcl]
    generalize s.flush.closed.map Prod.snd = tabs
    induction tabs with
    | nil => exact .nil
    | cons a l ih => exact .cons ⟨sortBy_perm key a, sortBy_sorted key a, sortBy_stable key a⟩ ih
  · intro u v
    have hv : v = ((ops.foldl MemW.sstep (MemW.create batchSize)).sortTable key).read := by
      show ((ops ++ [SOp.sort key]).foldl MemW.sstep (MemW.create batchSize)).read = _
      rw [List.foldl_append]
      rfl
    rw [hv]
    obtain ⟨h1, h2, h3, _⟩ := C67_sort_mem key (ops.foldl MemW.sstep (MemW.create batchSize)) []
    exact ⟨h1, h2, h3⟩

/-- The full statement of the in-place sort for all paths. -/
def SortsAll (p : String) : Prop :=
  ∀ (fs : Glob.Parent) (b r : Nat) (ops : List (WOp Nat)),
    ∀ t ∈ FileW.orderedTables (((Glob.writerAt p fs b r).run ops).sortFiles id).closed,
      SortedBy id t

/-- **C67, violated for paths that are patterns**: the files of the cache in `run[1]` are not found,
so `sort_by` leaves them unsorted. -/
theorem C67_sort_violation : ¬ SortsAll "run[1]" := by
  intro h
  have h1 := h [] 10 10 [.rows [2, 1]] [2, 1]
  have hv : Glob.visits "run[1]" "run[1]" = false := by decide
  have hc : (((FileW.create 10 10 false [] : FileW Nat).run [.rows [2, 1]]).sortFiles id).closed
      = [(0, [2, 1])] := by decide
  rw [Glob.writerAt, hv] at h1
  simp only [Glob.datasetFiles, List.filter_nil, List.flatMap_nil, List.map_nil] at h1
  rw [hc] at h1
  have := h1 (by simp [FileW.orderedTables])
  simp [SortedBy] at this

/-- Two files, one of them out of order, and a row written after the sort. -/
example : (((FileW.create 1 2).run [.rows [5, 3], .rows [4]]).flush.closed
    = [(0, [5, 3]), (1, [4])]) ∧
    written ([.rows [1]] : List (WOp Nat)) = [1] := by decide

end InPlace

end Verif.Cache
