import Verif.Cache.Handle
import Verif.Cache.ReaderProps

/-!
# What a reader shows while its writer goes on

* `C103_memory`: a reader of a memory cache is a snapshot.
* `C103_files`: a reader of a file cache follows the writer: it shows the complete files, or raises while one is being written.
* `C103_files_partial`: as long as the later rows fit into the buffer, it shows what it showed before.
-/

namespace Verif.Cache
variable {α K : Type} [LinearOrder K]

/-- **C103 (memory).** Whatever is done with the writer afterwards, a reader of a memory cache shows the rows that were
written before it was made, each once, in the same order at each use. -/
theorem C103_memory (batchSize : Nat) (ops : List (SOp α K)) :
    let w := ops.foldl AnyW.sstep (.mem (MemW.create batchSize))
    ∃ t : List α, t.Perm (ops.flatMap SOp.payload) ∧
      ∀ more : List (SOp α K), w.toReader.2.tables (more.foldl AnyW.sstep w.toReader.1) = .ok [t] := by
  intro w
  have hw : ∀ (ops : List (SOp α K)) (m : MemW α), ops.foldl AnyW.sstep (.mem m) = .mem (ops.foldl MemW.sstep m) := by
    intro ops
    induction ops with
    | nil => exact fun _ => rfl
    | cons op ops ih => exact fun m => ih (m.sstep op)
  refine ⟨(ops.foldl MemW.sstep (MemW.create batchSize)).read, (C67_interleaved batchSize 1 [] ops).2, fun more => ?_⟩
  show (AnyW.toReader w).2.tables _ = _
  rw [show w = _ from hw ops _]
  rfl

theorem file_steps (ops : List (SOp α K)) (m : FileW α) : ops.foldl AnyW.sstep (.file m) = .file (ops.foldl FileW.sstep m) := by
  induction ops generalizing m with
  | nil => rfl
  | cons op ops ih => exact ih (m.sstep op)

theorem file_calls (ops : List (WOp α)) (m : FileW α) :
    (ops.map (SOp.call (K := K))).foldl AnyW.sstep (.file m) = .file (m.run ops) := by
  rw [file_steps]
  congr 1
  induction ops generalizing m with
  | nil => rfl
  | cons op ops ih => exact ih (m.step op)

theorem sstep_inv (ops : List (SOp α K)) {s : FileW α} {h : List (List α)} (i : FileW.Inv s h) : ∃ h', FileW.Inv (ops.foldl FileW.sstep s) h' := by
  induction ops generalizing s h with
  | nil => exact ⟨h, i⟩
  | cons op ops ih =>
    cases op with
    | call op => exact ih (FileW.inv_step i op)
    | sort k => exact ih (inv_sortFiles k i).1

theorem sstep_sizes (ops : List (SOp α K)) (s : FileW α) :
    (ops.foldl FileW.sstep s).batchSize = s.batchSize ∧ (ops.foldl FileW.sstep s).rowsPerFile = s.rowsPerFile := by
  induction ops generalizing s with
  | nil => exact ⟨rfl, rfl⟩
  | cons op ops ih =>
    rw [List.foldl_cons]
    refine ⟨(ih _).1.trans ?_, (ih _).2.trans ?_⟩ <;> cases op <;> simp [FileW.sstep, FileW.sortFiles]

/-- The files of a state without open file are read in the order of creation. -/
theorem closed_tables {s : FileW α} {h : List (List α)} (i : FileW.Inv s h) : FileW.orderedTables s.closed = s.closed.map Prod.snd := by
  refine FileW.orderedTables_perm ?_ (List.Perm.refl _)
  have := i.sorted
  unfold FileW.names at this
  exact (List.pairwise_append.1 this).1

theorem closed_rows {s : FileW α} {h : List (List α)} (i : FileW.Inv s h) (ho : s.opened = none) :
    (s.closed.map Prod.snd).flatten ++ s.buffer.flatten = h.flatten := by
  obtain ⟨⟨G, go, h1, h2, h3, h4⟩, _⟩ := i
  have hgo : go = [] := h3 ho
  subst hgo
  rw [← h4, ← h1]
  simp [List.flatten_flatten]

theorem shown {s : FileW α} (ho : s.opened = none) : Handle.tables (.file : Handle α) (.file s) = .ok (FileW.orderedTables s.closed) := by
  simp only [Handle.tables, ho]

/-- **C103 (files).** For every history of calls and sorts before the reader of a file cache is made, and every history of calls
after it: the reader shows the rows written before, each once. Later it either raises, because a file is being written, or
shows the same tables and after them the first of the later rows in order, all but fewer than `batch_size`; once the writer is
flushed it shows all of them. -/
theorem C103_files (batchSize rowsPerFile : Nat) (hb : 0 < batchSize) (ext : List Nat) (ops : List (SOp α K)) :
    let w : AnyW α := ops.foldl AnyW.sstep (.file (FileW.create batchSize rowsPerFile true ext))
    ∃ first : List (List α), w.toReader.2.tables w.toReader.1 = .ok first ∧ first.flatten.Perm (ops.flatMap SOp.payload) ∧
    ∀ more : List (WOp α),
      let later := (more.map (SOp.call (K := K))).foldl AnyW.sstep w.toReader.1
      (w.toReader.2.tables later = .error .invalid ∨
        ∃ new lost, w.toReader.2.tables later = .ok (first ++ new) ∧ new.flatten ++ lost = written more ∧ lost.length < batchSize) ∧
      ∃ new, w.toReader.2.tables (later.sstep (SOp.call (K := K) .flush)) = .ok (first ++ new) ∧ new.flatten = written more := by
  intro w
  have hw : w = .file (ops.foldl FileW.sstep (FileW.create batchSize rowsPerFile true ext)) := file_steps ops _
  have hperm := (C67_interleaved batchSize rowsPerFile ext ops).1
  obtain ⟨h, i⟩ := sstep_inv ops (FileW.inv_create (α := α) batchSize rowsPerFile ext)
  have hbs : (ops.foldl FileW.sstep (FileW.create batchSize rowsPerFile true ext : FileW α)).batchSize = batchSize := (sstep_sizes ops _).1
  rw [hw]
  generalize ops.foldl FileW.sstep (FileW.create batchSize rowsPerFile true ext : FileW α) = s at *
  have j := FileW.inv_flush i
  have htr : (AnyW.file s).toReader = (.file s.flush, .file) := rfl
  rw [htr]
  dsimp only
  have hfirst : (s.flush.closed.map Prod.snd).flatten = h.flatten := by
    have := closed_rows j (FileW.flush_opened s)
    rwa [FileW.flush_buffer, List.flatten_nil, List.append_nil] at this
  have split : ∀ (t : FileW α) (more : List (WOp α)), t = s.flush.run more →
      ∃ rest, t.closed.map Prod.snd = s.flush.closed.map Prod.snd ++ rest ∧ FileW.Inv t (h ++ payloads more) := by
    rintro t more rfl
    obtain ⟨rest, hrest⟩ := FileW.run_closed_prefix more s.flush j.see
    exact ⟨rest.map Prod.snd, by rw [← hrest, List.map_append], FileW.inv_run_aux more j⟩
  refine ⟨FileW.orderedTables s.flush.closed, shown (FileW.flush_opened s), hperm _ (List.Perm.refl _), ?_⟩
  intro more
  rw [file_calls]
  constructor
  · obtain ⟨rest, hrest, k⟩ := split _ more rfl
    have hkb : (s.flush.run more).batchSize = batchSize := by simp [hbs]
    rcases ho : (s.flush.run more).opened with _ | f
    · right
      refine ⟨rest, (s.flush.run more).buffer.flatten, ?_, ?_, ?_⟩
      · rw [shown ho, closed_tables k, hrest, closed_tables j]
      · have := closed_rows k ho
        rw [hrest, List.flatten_append, hfirst, List.flatten_append, payloads_flatten, List.append_assoc] at this
        exact List.append_cancel_left this
      · rw [List.length_flatten]
        rcases k.buf with hk | hk
        · omega
        · simpa [hk] using hb
    · left
      simp only [Handle.tables, ho]
  · obtain ⟨rest, hrest, k⟩ := split _ (more ++ [.flush]) rfl
    have e : s.flush.run (more ++ [.flush]) = (s.flush.run more).flush := by
      rw [FileW.run_append]
      rfl
    rw [e] at hrest k
    refine ⟨rest, ?_, ?_⟩
    · show Handle.tables (.file : Handle α) (.file (s.flush.run more).flush) = _
      rw [shown (FileW.flush_opened _), closed_tables k, hrest, closed_tables j]
    · have := closed_rows k (FileW.flush_opened _)
      rw [hrest, List.flatten_append, hfirst, List.flatten_append, payloads_flatten, List.append_assoc, FileW.flush_buffer,
        written_append] at this
      have := List.append_cancel_left this
      simpa [written, WOp.payload] using this

/-- Calls that hand over rows without a table of their own and without a flush. -/
def Buffered : WOp α → Prop
  | .table _ => False
  | .flush => False
  | _ => True

theorem buffered_run (more : List (WOp α)) (hm : ∀ op ∈ more, Buffered op) (s : FileW α) (hc : s.count < s.rowsPerFile)
    (hs : (s.buffer.map List.length).sum + (written more).length < s.batchSize) :
    (s.run more).closed = s.closed ∧ (s.run more).opened = s.opened := by
  have hbatch : ∀ (s : FileW α) (b : List α), s.count < s.rowsPerFile → (s.buffer.map List.length).sum + b.length < s.batchSize →
      s.writeBatch b = { s with buffer := s.buffer ++ [b] } := by
    intro s b hc hs
    unfold FileW.writeBatch
    dsimp only
    rw [if_pos ⟨by omega, hc⟩]
  have hstep : ∀ (s : FileW α) (op : WOp α), Buffered op → s.count < s.rowsPerFile →
      (s.buffer.map List.length).sum + op.payload.length < s.batchSize →
      s.step op = s ∧ op.payload = [] ∨ s.step op = { s with buffer := s.buffer ++ [op.payload] } := by
    intro s op hop hc hs
    cases op with
    | rows l =>
      by_cases hl : l.isEmpty
      · left
        simp only [FileW.step, FileW.writeRows, WOp.payload, if_pos hl]
        exact ⟨trivial, List.isEmpty_iff.1 hl⟩
      · right
        simp only [FileW.step, FileW.writeRows, if_neg hl]
        exact hbatch s l hc hs
    | columns c =>
      rcases c with _ | c
      · exact Or.inl ⟨rfl, rfl⟩
      · exact Or.inr (hbatch s c hc hs)
    | batch b => exact Or.inr (hbatch s b hc hs)
    | table t => exact hop.elim
    | flush => exact hop.elim
  induction more generalizing s with
  | nil => exact ⟨rfl, rfl⟩
  | cons op more ih =>
    have hlen : (written (op :: more)).length = op.payload.length + (written more).length := by
      simp [written]
    have ih := ih (fun o ho => hm o (by simp [ho])) (s.step op)
    have hrun : s.run (op :: more) = (s.step op).run more := rfl
    rw [hrun]
    rcases hstep s op (hm op (by simp)) hc (by omega) with ⟨e, _⟩ | e
    · rw [e] at ih ⊢
      exact ih hc (by omega)
    · rw [e] at ih ⊢
      exact ih hc (by simp; omega)

/-- **C103 (files, partial).** As long as fewer than `batch_size` rows are written after the reader of a file cache was made,
without a flush or a table, the reader shows what it showed before. Missing: longer histories, for which it is false
(`C103_files_violation`). -/
theorem C103_files_partial (batchSize rowsPerFile : Nat) (hr : 0 < rowsPerFile) (ext : List Nat) (ops : List (SOp α K)) (more : List (WOp α))
    (hm : ∀ op ∈ more, Buffered op) (hs : (written more).length < batchSize) :
    let w : AnyW α := ops.foldl AnyW.sstep (.file (FileW.create batchSize rowsPerFile true ext))
    w.toReader.2.tables ((more.map (SOp.call (K := K))).foldl AnyW.sstep w.toReader.1) = w.toReader.2.tables w.toReader.1 := by
  intro w
  have hw : w = .file (ops.foldl FileW.sstep (FileW.create batchSize rowsPerFile true ext)) := file_steps ops _
  obtain ⟨hbs, hrs⟩ := sstep_sizes ops (FileW.create batchSize rowsPerFile true ext : FileW α)
  rw [hw]
  generalize ops.foldl FileW.sstep (FileW.create batchSize rowsPerFile true ext : FileW α) = s at *
  have htr : (AnyW.file s).toReader = (.file s.flush, .file) := rfl
  rw [htr]
  dsimp only
  rw [file_calls]
  have hbs' : s.batchSize = batchSize := hbs
  have hrs' : s.rowsPerFile = rowsPerFile := hrs
  obtain ⟨h1, h2⟩ := buffered_run more hm s.flush (by rw [FileW.flush_count]; simpa [hrs'] using hr)
    (by rw [FileW.flush_buffer]; simpa [hbs'] using hs)
  have ho := FileW.flush_opened s
  rw [shown ho, shown (by rw [h2, ho]), h1]

/-- **C103 (files), violation.** With a batch size of 1 the reader shows a row that was written after it was made; with larger files
it raises. -/
theorem C103_files_violation :
    (let w : AnyW Nat := .file ((FileW.create 1 1).run [.rows [1]])
     w.toReader.2.tables w.toReader.1 = .ok [[1]] ∧
     w.toReader.2.tables (w.toReader.1.sstep (SOp.call (K := Nat) (.rows [2]))) = .ok [[1], [2]]) ∧
    (let w : AnyW Nat := .file ((FileW.create 1 5).run [.rows [1]])
     w.toReader.2.tables w.toReader.1 = .ok [[1]] ∧
     w.toReader.2.tables (w.toReader.1.sstep (SOp.call (K := Nat) (.rows [2]))) = .error .invalid) := by
  refine ⟨⟨?_, ?_⟩, ?_, ?_⟩
  · exact (shown rfl).trans (by rw [FileW.orderedTables_perm (by decide) (List.Perm.refl _)]; rfl)
  · exact (shown rfl).trans (by rw [FileW.orderedTables_perm (by decide) (List.Perm.refl _)]; rfl)
  · exact (shown rfl).trans (by rw [FileW.orderedTables_perm (by decide) (List.Perm.refl _)]; rfl)
  · rfl

/-- The hypotheses of `C103_files_partial` are met by two calls with three rows and a batch size of four. -/
example : (∀ op ∈ [WOp.rows [1, 2], .batch [3]], Buffered op) ∧ (written [WOp.rows [1, 2], .batch [3]]).length < 4 := by
  simp [Buffered, written, WOp.payload]

end Verif.Cache
