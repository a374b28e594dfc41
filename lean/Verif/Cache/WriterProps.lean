import Verif.Cache.WriterLemmas

/-! # Properties C01-C04: what is written is what is read -/

namespace Verif.Cache

variable {α : Type}

/-! ## C01 -/

/-- **C01.** (For a path that matches itself as a glob pattern, see C51.) After any history of calls and a final flush no file is left open, and whatever the
order in which the file system lists the files, the reader yields exactly the rows written, in
order. -/
theorem C01_file_roundtrip (batchSize rowsPerFile : Nat) (ext : List Nat) (ops : List (WOp α)) :
    let s := (FileW.create batchSize rowsPerFile true ext).run (ops ++ [.flush])
    s.opened = none ∧ s.buffer = [] ∧
      ∀ listing : List (Nat × List α), listing.Perm s.closed →
        (FileW.orderedTables listing).flatten = written ops := by
  intro s
  have hs : s = ((FileW.create batchSize rowsPerFile true ext).run ops).flush := by
    simp [s, FileW.run, FileW.step]
  have i : FileW.Inv s (payloads ops) := by
    rw [hs]; exact FileW.inv_flush (FileW.inv_run _ _ _ ops)
  have ho : s.opened = none := by rw [hs]; exact FileW.flush_opened _
  have hb : s.buffer = [] := by rw [hs]; exact FileW.flush_buffer _
  refine ⟨ho, hb, ?_⟩
  intro listing hl
  obtain ⟨⟨G, go, h1, h2, h3, h4⟩, hsorted, _, _, _, _⟩ := i
  have : go = [] := h3 ho
  subst this
  have hnames : (s.closed.map Prod.fst).Pairwise (· < ·) := by
    simpa [FileW.names, ho] using hsorted
  rw [FileW.orderedTables_perm hnames hl, ← h1, ← payloads_flatten, ← h4]
  simp [hb, List.flatten_flatten]

/-- C01 is about non-trivial runs: three files are produced here. -/
example : ((FileW.create 2 3).run
    ([.rows [1], .rows [2, 3], .table [4], .batch [5], .rows [], .columns none] ++ [.flush])).closed
    = [(0, [1, 2, 3]), (1, [4]), (2, [5])] := by decide

/-! ## C02 -/

/-- The full statement of C02: reading back gives the rows in write order. -/
def MemRoundtrip (α : Type) : Prop :=
  ∀ (batchSize : Nat) (ops : List (WOp α)),
    ((MemW.create batchSize).run ops).read = written ops

/-- **C02 is false of the code**: `write_table` overtakes rows that are still buffered. -/
theorem C02_violation : ¬ MemRoundtrip Nat := by
  intro h
  have := h 10 [.rows [1], .table [2]]
  revert this
  decide

/-- **C02 (partial).** No row is lost, invented or duplicated in any history. Missing with respect
to the full statement: the order. -/
theorem C02_mem_multiset_partial (batchSize : Nat) (ops : List (WOp α)) :
    (((MemW.create batchSize).run ops).read).Perm (written ops) := by
  have := MemW.run_contents_perm ops (MemW.create batchSize)
  rw [MemW.read, MemW.flush_table]
  simpa [MemW.create] using this

/-- Histories in which each `write_table` is the first call or comes right after a flush or another
`write_table`. -/
def TablesAfterFlush (ops : List (WOp α)) : Prop :=
  ∀ pre t post, ops = pre ++ WOp.table t :: post →
    pre = [] ∨ ∃ pre', pre = pre' ++ [.flush] ∨ ∃ t', pre = pre' ++ [.table t']

/-- **C02 (partial).** Under the discipline "flush before `write_table`" the rows come back in write
order. In particular for histories without `write_table`. -/
theorem C02_mem_order_partial (batchSize : Nat) (ops : List (WOp α)) (h : TablesAfterFlush ops) :
    ((MemW.create batchSize).run ops).read = written ops := by
  -- strengthened induction on prefixes
  have key : ∀ n, n ≤ ops.length →
      let s := (MemW.create batchSize : MemW α).run (ops.take n)
      s.table ++ s.buffer.flatten = written (ops.take n) ∧
      ((ops.take n = [] ∨ ∃ pre', ops.take n = pre' ++ [.flush] ∨ ∃ t', ops.take n = pre' ++ [.table t'])
        → s.buffer = []) := by
    intro n
    induction n with
    | zero => intro _; simp [MemW.run, MemW.create, written]
    | succ n ih =>
      intro hn
      have hlt : n < ops.length := hn
      obtain ⟨ih1, ih2⟩ := ih (by omega)
      have htake : ops.take (n + 1) = ops.take n ++ [ops[n]] := by simp
      have hrun : (MemW.create batchSize : MemW α).run (ops.take (n + 1))
          = ((MemW.create batchSize : MemW α).run (ops.take n)).step ops[n] := by
        rw [htake]; simp only [MemW.run, List.foldl_append, List.foldl_cons, List.foldl_nil]
      have hsplit : ops = ops.take n ++ ops[n] :: ops.drop (n + 1) := by simp
      dsimp only
      rw [hrun]
      constructor
      · rw [MemW.step_contents_eq]
        · rw [ih1, htake, written_append]; simp [written]
        · intro t ht
          have := h (ops.take n) t (ops.drop (n + 1)) (by rw [← ht]; exact hsplit)
          rw [ih2 this]; rfl
      · intro hc
        rw [htake] at hc
        rcases hc with hc | ⟨pre', hc | ⟨t', hc⟩⟩
        · exact absurd hc (List.append_ne_nil_of_right_ne_nil _ (by simp))
        · have := (List.append_inj' hc rfl).2
          simp at this
          rw [this]; exact MemW.flush_buffer _
        · have := (List.append_inj' hc rfl).2
          simp at this
          rw [this]
          have hb := ih2 (h (ops.take n) t' (ops.drop (n + 1)) (by rw [← this]; exact hsplit))
          simpa [MemW.step, MemW.writeTable] using hb
  have := (key ops.length (by omega)).1
  rw [MemW.read, MemW.flush_table]
  simpa using this

/-- The discipline is met by a history that mixes all calls. -/
example : TablesAfterFlush [WOp.rows [1, 2], .flush, .table [3], .table [4], .batch [5]] := by
  intro pre t post h
  match pre, h with
  | [], h => simp at h
  | [_], h => simp at h
  | [_, _], h => simp at h; right; exact ⟨[.rows [1, 2]], Or.inl (by simp [h])⟩
  | [_, _, _], h => simp at h; right; exact ⟨[.rows [1, 2], .flush], Or.inr ⟨[3], by simp [h]⟩⟩
  | [_, _, _, _], h => simp at h
  | _ :: _ :: _ :: _ :: _ :: pre, h => simp at h

/-! ## C03 -/

/-- **C03 (in memory).** At every point of every history the visible rows together with the buffered
ones are the rows written, and fewer than `batchSize` rows are buffered. -/
theorem C03_mem_accounting (batchSize : Nat) (hb : 0 < batchSize) (ops : List (WOp α)) :
    let s := (MemW.create batchSize).run ops
    (s.table ++ s.buffer.flatten).Perm (written ops) ∧ s.buffer.flatten.length < batchSize := by
  intro s
  constructor
  · exact MemW.run_contents_perm ops (MemW.create batchSize)
  · have i : MemW.Inv s := MemW.inv_run ops ⟨Or.inr rfl⟩
    have e : s.batchSize = batchSize := MemW.run_batchSize ops _
    rcases i.buf with h | h
    · rw [List.length_flatten]; omega
    · rw [h]; simpa using hb

/-- **C03 (on disk).** If the process dies between two calls, the complete files hold a prefix of
the rows written, and fewer than `batchSize + rowsPerFile` rows are lost. -/
theorem C03_file_crash_prefix (batchSize rowsPerFile : Nat) (hb : 0 < batchSize)
    (hr : 0 < rowsPerFile) (ext : List Nat) (ops : List (WOp α)) (listing : List (Nat × List α))
    (hl : listing.Perm ((FileW.create batchSize rowsPerFile true ext).run ops).closed) :
    ∃ lost, (FileW.orderedTables listing).flatten ++ lost = written ops ∧
      lost.length < batchSize + rowsPerFile := by
  have i := FileW.inv_run batchSize rowsPerFile ext ops
  obtain ⟨⟨G, go, h1, h2, h3, h4⟩, hsorted, hc, hcl, hbuf, _⟩ := i
  generalize hs : (FileW.create batchSize rowsPerFile true ext).run ops = s at *
  have e1 : s.batchSize = batchSize := by rw [← hs]; simp [FileW.create]
  have e2 : s.rowsPerFile = rowsPerFile := by rw [← hs]; simp [FileW.create]
  have hnames : (s.closed.map Prod.fst).Pairwise (· < ·) := by
    rw [FileW.names, List.pairwise_append] at hsorted; exact hsorted.1
  refine ⟨go.flatten ++ s.buffer.flatten, ?_, ?_⟩
  · rw [FileW.orderedTables_perm hnames hl, ← h1, ← payloads_flatten, ← h4]
    simp [List.flatten_flatten]
  · rw [List.length_append, ← h2, ← hc, List.length_flatten]
    have a1 : (s.buffer.map List.length).sum < batchSize := by
      rcases hbuf with h | h
      · omega
      · simpa [h] using hb
    have a2 : s.count < rowsPerFile := by
      rcases hcl with h | h
      · omega
      · rw [hc, h]; simpa using hr
    omega

/-- A history with rows at risk in both the buffer and the open file. -/
example : let s := (FileW.create 2 5).run [.rows [1, 2], .rows [3]]
    s.closed = [] ∧ s.opened = some (0, [1, 2]) ∧ s.buffer = [[3]] := by decide

/-! ## C04 -/

/-- **C04 (alignment).** After a final flush each file is the concatenation of complete payloads:
the sequence of non-empty payloads can be cut into consecutive groups, one per file. So no call's
rows are split over two files. -/
theorem C04_file_alignment (batchSize rowsPerFile : Nat) (ext : List Nat) (ops : List (WOp α)) :
    ∃ groups : List (List (List α)),
      groups.flatten = payloads ops ∧
      ((FileW.create batchSize rowsPerFile true ext).run (ops ++ [.flush])).closed.map Prod.snd
        = groups.map List.flatten := by
  have hs : (FileW.create batchSize rowsPerFile true ext : FileW α).run (ops ++ [.flush])
      = ((FileW.create batchSize rowsPerFile true ext).run ops).flush := by
    simp [FileW.run, FileW.step]
  rw [hs]
  obtain ⟨⟨G, go, h1, h2, h3, h4⟩, _⟩ := FileW.inv_flush (FileW.inv_run batchSize rowsPerFile ext ops)
  have : go = [] := h3 (FileW.flush_opened _)
  subst this
  refine ⟨G, ?_, h1.symm⟩
  rw [← h4, FileW.flush_buffer]; simp

/-- **C04 (fresh names).** Whatever files exist, a new file gets a name different from, and greater
than, all of them. -/
theorem C04_fresh_name (s : FileW α) (h : s.sees = true) : ∀ n ∈ s.names, n < s.nextName :=
  FileW.lt_nextName s h

/-- **C04 (creation order, immutability).** In every reachable state the file names are strictly
increasing in creation order, and complete files are never changed or removed by later calls. -/
theorem C04_file_order (batchSize rowsPerFile : Nat) (ext : List Nat) (ops more : List (WOp α)) :
    let s := (FileW.create batchSize rowsPerFile true ext).run ops
    s.names.Pairwise (· < ·) ∧ s.closed <+: (s.run more).closed :=
  ⟨(FileW.inv_run batchSize rowsPerFile ext ops).sorted,
    FileW.run_closed_prefix more _ (FileW.inv_run batchSize rowsPerFile ext ops).see⟩

/-- The grouping for a run with roll-over: files hold two payloads and one payload. -/
example : ((FileW.create 1 3).run ([.rows [1, 2], .rows [3, 4], .rows [5]] ++ [.flush])).closed
    = [(0, [1, 2, 3, 4]), (1, [5])] := by decide

end Verif.Cache
