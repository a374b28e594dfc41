import Verif.Cache.WriterProps

/-! # C83: the sizes of the files of an on-disk cache -/

namespace Verif.Cache
namespace FileW
variable {α : Type}

/-- The rows that are not in a complete file. -/
def pending (s : FileW α) : List α := (s.opened.map Prod.snd).getD [] ++ s.buffer.flatten

theorem flush_files (s : FileW α) (hsee : s.sees = true) :
    s.flush.closed.map Prod.snd = s.closed.map Prod.snd ++ (if s.opened = none ∧ s.buffer = [] then [] else [s.pending]) := by
  unfold flush pending
  cases hb : s.buffer with
  | nil =>
    cases ho : s.opened with
    | none => simp [closeWriter, ho]
    | some f => simp [closeWriter, ho]
  | cons b bs =>
    cases ho : s.opened with
    | none =>
      have := without_next s hsee
      simp [closeWriter, emit, ho, this]
    | some f => simp [closeWriter, emit, ho]

theorem writeBatch_files (s : FileW α) (b : List α) (hsee : s.sees = true)
    (hc : s.count = ((s.opened.map Prod.snd).getD []).length) :
    (s.writeBatch b).closed = s.closed ∨
    ((s.writeBatch b).closed.map Prod.snd = s.closed.map Prod.snd ++ [s.pending ++ b] ∧ s.rowsPerFile ≤ (s.pending ++ b).length) := by
  unfold writeBatch
  dsimp only
  split
  · exact Or.inl rfl
  · next hsmall =>
    have hm : (if s.buffer.isEmpty = true then b else (s.buffer ++ [b]).flatten) = s.buffer.flatten ++ b := by
      split
      · next h => rw [List.isEmpty_iff] at h; simp [h]
      · simp
    rw [hm]
    generalize he : ({ s with buffer := [] } : FileW α).emit (s.buffer.flatten ++ b) = e
    have hcl : e.closed = s.closed := by
      rw [← he]
      exact emit_closed _ _ hsee
    split
    · next hfull =>
      right
      have ho : e.opened ≠ none ∧ (e.opened.map Prod.snd).getD [] = s.pending ++ b := by
        rw [← he]
        unfold emit pending
        cases s.opened with
        | none => simp
        | some f => simp
      have hf := flush_files ({ e with count := s.count + (b.length + (s.buffer.map List.length).sum) } : FileW α)
        (by simp only [← he, emit_sees, hsee])
      refine ⟨?_, ?_⟩
      · rw [hf]
        have hbuf : e.buffer = [] := by rw [← he, emit_buffer]
        rw [if_neg (fun h => ho.1 h.1)]
        unfold pending
        dsimp only
        rw [hcl, hbuf, ho.2]
        simp [pending]
      · have h1 : e.rowsPerFile = s.rowsPerFile := by
          rw [← he]
          unfold emit
          cases s.opened <;> rfl
        have h2 : e.rowsPerFile ≤ s.count + (b.length + (s.buffer.map List.length).sum) := hfull
        unfold pending
        rw [List.length_append, List.length_append, sum_lengths, ← hc]
        omega
    · exact Or.inl hcl

/-- The calls that hand over rows to the buffer. -/
def _root_.Verif.Cache.WOp.isWrite {α : Type} : WOp α → Bool
  | .rows _ => true
  | .columns _ => true
  | .batch _ => true
  | .table _ => false
  | .flush => false

theorem pending_length {s : FileW α} {h : List (List α)} (i : Inv s h) (hb : 0 < s.batchSize) (hr : 0 < s.rowsPerFile) :
    s.pending.length + 2 ≤ s.rowsPerFile + s.batchSize := by
  unfold pending
  rw [List.length_append, ← i.cnt, sum_lengths]
  have h1 : s.count < s.rowsPerFile := by
    rcases i.cntlt with h | h
    · exact h
    · have := i.cnt
      rw [h] at this
      simp at this
      omega
  have h2 : (s.buffer.map List.length).sum < s.batchSize := by
    rcases i.buf with h | h
    · exact h
    · rw [h]; simpa using hb
  omega

/-- What one call adds to the complete files: nothing, a full file, or, for `flush` and `write_table`, all pending rows, and the
table. -/
theorem step_files {s : FileW α} {h : List (List α)} (i : Inv s h) (op : WOp α) :
    (s.step op).closed = s.closed ∨
    (op.isWrite = true ∧ (s.step op).closed.map Prod.snd = s.closed.map Prod.snd ++ [s.pending ++ op.payload] ∧
      s.rowsPerFile ≤ (s.pending ++ op.payload).length) ∨
    (op.isWrite = false ∧ ∃ new, (s.step op).closed.map Prod.snd = s.closed.map Prod.snd ++ new ∧
      ∀ f ∈ new, f = s.pending ∨ f = op.payload) := by
  cases op with
  | rows l =>
    simp only [step, writeRows, WOp.payload, WOp.isWrite]
    split
    · exact Or.inl rfl
    · rcases writeBatch_files s l i.see i.cnt with h | h
      · exact Or.inl h
      · exact Or.inr (Or.inl ⟨trivial, h⟩)
  | columns c =>
    cases c with
    | none => exact Or.inl rfl
    | some c =>
      rcases writeBatch_files s c i.see i.cnt with h | h
      · exact Or.inl h
      · exact Or.inr (Or.inl ⟨rfl, h⟩)
  | batch b =>
    rcases writeBatch_files s b i.see i.cnt with h | h
    · exact Or.inl h
    · exact Or.inr (Or.inl ⟨rfl, h⟩)
  | table t =>
    right; right
    refine ⟨rfl, (if s.opened = none ∧ s.buffer = [] then [] else [s.pending]) ++ [t], ?_, ?_⟩
    · simp only [step, writeTable]
      rw [without_next s.flush (by rw [flush_sees]; exact i.see), List.map_append, flush_files s i.see, List.append_assoc]
      rfl
    · intro f hf
      rcases List.mem_append.1 hf with h | h
      · left
        split at h
        · exact absurd h (by simp)
        · simpa using h
      · right
        simpa [WOp.payload] using h
  | flush =>
    right; right
    refine ⟨rfl, _, flush_files s i.see, ?_⟩
    intro f hf
    left
    split at hf
    · exact absurd hf (by simp)
    · simpa using hf

theorem step_sizes (s : FileW α) (op : WOp α) : (s.step op).batchSize = s.batchSize ∧ (s.step op).rowsPerFile = s.rowsPerFile :=
  ⟨step_batchSize s op, step_rowsPerFile s op⟩

theorem run_induct {P : FileW α → Prop} {ops : List (WOp α)} : ∀ {s : FileW α} {h}, Inv s h → P s →
    (∀ s h, Inv s h → ∀ op ∈ ops, P s → P (s.step op)) → P (s.run ops) := by
  induction ops with
  | nil => intro s h _ h1 _; exact h1
  | cons op ops ih =>
    intro s h i h1 h2
    exact ih (inv_step i op) (h2 s h i op (by simp) h1) (fun s h i op' hop => h2 s h i op' (by simp [hop]))

end FileW

/-- **C83 (no file is too large).** For every history of calls that hand over at most `p` rows each: no file, complete or open, has more than
`rows_per_file + batch_size + p - 2` rows. -/
theorem C83_largest {α : Type} (batchSize rowsPerFile : Nat) (hb : 0 < batchSize) (hr : 0 < rowsPerFile) (ext : List Nat) (ops : List (WOp α))
    (p : Nat) (hp : ∀ op ∈ ops, op.payload.length ≤ p) :
    let s := (FileW.create batchSize rowsPerFile true ext).run ops
    ∀ f ∈ s.closed ++ s.opened.toList, f.2.length + 2 ≤ rowsPerFile + batchSize + p := by
  intro s f hf
  have key : (s.batchSize = batchSize ∧ s.rowsPerFile = rowsPerFile) ∧ ∀ f ∈ s.closed.map Prod.snd, f.length + 2 ≤ rowsPerFile + batchSize + p := by
    apply FileW.run_induct (P := fun s => (s.batchSize = batchSize ∧ s.rowsPerFile = rowsPerFile) ∧
      ∀ f ∈ s.closed.map Prod.snd, f.length + 2 ≤ rowsPerFile + batchSize + p) (FileW.inv_create batchSize rowsPerFile ext)
    · exact ⟨⟨rfl, rfl⟩, by simp [FileW.create]⟩
    · intro s h i op hop hs
      obtain ⟨⟨h1, h2⟩, h3⟩ := hs
      refine ⟨by rw [(s.step_sizes op).1, (s.step_sizes op).2]; exact ⟨h1, h2⟩, ?_⟩
      have hpend := FileW.pending_length i (by omega) (by omega)
      have hop' := hp op hop
      rcases FileW.step_files i op with e | ⟨_, e, _⟩ | ⟨_, new, e, hn⟩
      · rw [e]; exact h3
      · rw [e]
        intro f hf
        rcases List.mem_append.1 hf with h | h
        · exact h3 f h
        · rw [List.mem_singleton] at h
          rw [h, List.length_append]
          omega
      · rw [e]
        intro f hf
        rcases List.mem_append.1 hf with h | h
        · exact h3 f h
        · rcases hn f h with rfl | rfl <;> omega
  rcases List.mem_append.1 hf with h | h
  · exact key.2 _ (List.mem_map_of_mem h)
  · have := FileW.pending_length (FileW.inv_run batchSize rowsPerFile ext ops) (by rw [key.1.1]; exact hb) (by rw [key.1.2]; exact hr)
    rw [key.1.1, key.1.2] at this
    have e : s.opened = some f := by simpa using h
    unfold FileW.pending at this
    rw [e] at this
    simp at this
    omega

/-- **C83 (no file is too small).** For every history without `write_table` and explicit flushes, followed by the final one: every file but
the last has at least `rows_per_file` rows. So there are at most `rows / rows_per_file + 1` files. -/
theorem C83_smallest {α : Type} (batchSize rowsPerFile : Nat) (hr : 0 < rowsPerFile) (ext : List Nat) (ops : List (WOp α))
    (hw : ∀ op ∈ ops, op.isWrite = true) :
    let s := (FileW.create batchSize rowsPerFile true ext).run (ops ++ [.flush])
    (∀ f ∈ s.closed.dropLast, rowsPerFile ≤ f.2.length) ∧ s.closed.length ≤ (written ops).length / rowsPerFile + 1 := by
  intro s
  have hs : s = ((FileW.create batchSize rowsPerFile true ext).run ops).flush := by
    simp [s, FileW.run, FileW.step]
  have i := FileW.inv_run batchSize rowsPerFile ext ops
  have key : ((FileW.create batchSize rowsPerFile true ext : FileW α).run ops).rowsPerFile = rowsPerFile ∧
      ∀ f ∈ ((FileW.create batchSize rowsPerFile true ext).run ops).closed.map Prod.snd, rowsPerFile ≤ f.length := by
    apply FileW.run_induct (P := fun s => s.rowsPerFile = rowsPerFile ∧ ∀ f ∈ s.closed.map Prod.snd, rowsPerFile ≤ f.length)
      (FileW.inv_create batchSize rowsPerFile ext)
    · exact ⟨rfl, by simp [FileW.create]⟩
    · intro s h i op hop hs
      obtain ⟨h2, h3⟩ := hs
      refine ⟨by rw [(s.step_sizes op).2]; exact h2, ?_⟩
      rcases FileW.step_files i op with e | ⟨_, e, hl⟩ | ⟨e, _⟩
      · rw [e]; exact h3
      · rw [e]
        intro f hf
        rcases List.mem_append.1 hf with h | h
        · exact h3 f h
        · rw [List.mem_singleton] at h
          rw [h]
          omega
      · rw [hw op hop] at e
        exact absurd e (by simp)
  have hfl := FileW.flush_files _ i.see
  rw [← hs] at hfl
  have hdrop : ∀ f ∈ (s.closed.map Prod.snd).dropLast, rowsPerFile ≤ f.length := by
    rw [hfl]
    intro f hf
    split at hf
    · rw [List.append_nil] at hf
      exact key.2 f (List.dropLast_subset _ hf)
    · rw [List.dropLast_concat] at hf
      exact key.2 f hf
  refine ⟨?_, ?_⟩
  · intro f hf
    apply hdrop
    rw [← List.map_dropLast]
    exact List.mem_map_of_mem hf
  · obtain ⟨groups, g1, g2⟩ := C04_file_alignment batchSize rowsPerFile ext ops
    have hlen : (written ops).length = (s.closed.map Prod.snd).flatten.length := by
      rw [← payloads_flatten, ← g1, show s.closed.map Prod.snd = groups.map List.flatten from g2, List.flatten_flatten]
    have hsum : ∀ l : List (List α), (∀ f ∈ l.dropLast, rowsPerFile ≤ f.length) → (l.length - 1) * rowsPerFile ≤ l.flatten.length := by
      intro l
      induction l with
      | nil => simp
      | cons a l ih =>
        intro h
        cases l with
        | nil => simp
        | cons b l =>
          rw [List.dropLast_cons_of_ne_nil (by simp)] at h
          have h1 := h a (by simp)
          have h2 := ih (fun f hf => h f (by simp [hf]))
          rw [List.flatten_cons, List.length_append]
          simp only [List.length_cons, Nat.add_sub_cancel] at h2 ⊢
          rw [Nat.add_mul, Nat.one_mul]
          omega
    have h1 := hsum _ hdrop
    rw [← hlen, List.length_map, ← Nat.le_div_iff_mul_le hr] at h1
    omega

/-- The hypotheses hold for a history with a full file and a rest, and the largest size is reached: a file of `5 + 3 + 5 - 2` rows. -/
example : ((FileW.create 3 3).run ([.rows [1, 2], .batch [3, 4, 5], .rows [6]] ++ [.flush])).closed = [(0, [1, 2, 3, 4, 5]), (1, [6])] := by
  decide
example : ((FileW.create 3 5).run [.rows [1, 2, 3, 4], .rows [5, 6], .rows [7, 8, 9, 10, 11]]).closed = [(0, [1, 2, 3, 4, 5, 6, 7, 8, 9, 10, 11])] ∧
    11 + 2 = 5 + 3 + 5 := by
  decide

end Verif.Cache
