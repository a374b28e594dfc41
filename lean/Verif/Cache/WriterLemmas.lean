import Verif.Cache.Writer

/-! Helper lemmas for the cache writers. The property theorems are in
`Verif/Cache/WriterProps.lean`. -/

namespace Verif.Cache

variable {α : Type}

@[simp] theorem flatten_filter_nonempty (l : List (List α)) :
    (l.filter (fun p => !p.isEmpty)).flatten = l.flatten := by
  induction l with
  | nil => rfl
  | cons a l ih => cases a <;> simp [ih]

theorem payloads_flatten (ops : List (WOp α)) : (payloads ops).flatten = written ops := by
  simp [payloads, written, List.flatMap]

theorem payloads_append (a b : List (WOp α)) : payloads (a ++ b) = payloads a ++ payloads b := by
  simp [payloads]

theorem written_append (a b : List (WOp α)) : written (a ++ b) = written a ++ written b := by
  simp [written]

/-- keep only the non-empty pieces -/
def ne (l : List (List α)) : List (List α) := l.filter (fun p => !p.isEmpty)

@[simp] theorem ne_append (a b : List (List α)) : ne (a ++ b) = ne a ++ ne b := by simp [ne]
@[simp] theorem ne_flatten (a : List (List α)) : (ne a).flatten = a.flatten := by simp [ne]
@[simp] theorem ne_nil : ne ([] : List (List α)) = [] := rfl

theorem payloads_single (op : WOp α) : payloads [op] = ne [op.payload] := by simp [payloads, ne]

namespace FileW

/-- Contents invariant: there is a grouping of the non-empty payloads into closed files, open file
and buffer. -/
structure Inv (s : FileW α) (h : List (List α)) : Prop where
  groups : ∃ (G : List (List (List α))) (go : List (List α)),
      G.map List.flatten = s.closed.map Prod.snd ∧
      (s.opened.map Prod.snd).getD [] = go.flatten ∧
      (s.opened = none → go = []) ∧
      G.flatten ++ go ++ ne s.buffer = h
  sorted : s.names.Pairwise (· < ·)
  cnt : s.count = ((s.opened.map Prod.snd).getD []).length
  cntlt : s.count < s.rowsPerFile ∨ s.opened = none
  buf : (s.buffer.map List.length).sum < s.batchSize ∨ s.buffer = []
  see : s.sees = true

theorem foldl_max_le (l : List Nat) (n : Nat) : n ≤ l.foldl max n ∧ ∀ x ∈ l, x ≤ l.foldl max n := by
  induction l generalizing n with
  | nil => simp
  | cons a l ih =>
    have := ih (max n a)
    simp only [List.foldl_cons, List.mem_cons, forall_eq_or_imp]
    grind

theorem lt_nextName (s : FileW α) (hsee : s.sees = true) : ∀ n ∈ s.names, n < s.nextName := by
  intro n hn
  have hn : n ∈ s.seenNames := by simp [seenNames, hsee, hn]
  unfold nextName
  cases h : s.seenNames with
  | nil => simp [h] at hn
  | cons a l =>
    rw [h] at hn
    have := foldl_max_le l a
    simp only [List.mem_cons] at hn ⊢
    rcases hn with rfl | hn
    · exact Nat.lt_succ_of_le this.1
    · exact Nat.lt_succ_of_le (this.2 n hn)

theorem without_next (s : FileW α) (hsee : s.sees = true) :
    without s.closed s.nextName = s.closed := by
  unfold without
  rw [List.filter_eq_self]
  intro f hf
  have := lt_nextName s hsee f.1 (by simp [names]; exact Or.inl ⟨f.2, hf⟩)
  simp; omega

theorem inv_create (b r : Nat) (ext : List Nat) : Inv (create b r true ext : FileW α) [] := by
  refine ⟨⟨[], [], ?_⟩, ?_, ?_, ?_, ?_, ?_⟩ <;> simp [create, names]

@[simp] theorem emit_batchSize (s : FileW α) (b) : (s.emit b).batchSize = s.batchSize := by
  unfold emit; split <;> rfl
@[simp] theorem emit_rowsPerFile (s : FileW α) (b) : (s.emit b).rowsPerFile = s.rowsPerFile := by
  unfold emit; split <;> rfl
@[simp] theorem closeWriter_batchSize (s : FileW α) : (s.closeWriter).batchSize = s.batchSize := by
  unfold closeWriter; split <;> rfl
@[simp] theorem closeWriter_rowsPerFile (s : FileW α) :
    (s.closeWriter).rowsPerFile = s.rowsPerFile := by
  unfold closeWriter; split <;> rfl
@[simp] theorem flush_batchSize (s : FileW α) : (s.flush).batchSize = s.batchSize := by
  unfold flush; split <;> simp
@[simp] theorem flush_rowsPerFile (s : FileW α) : (s.flush).rowsPerFile = s.rowsPerFile := by
  unfold flush; split <;> simp
@[simp] theorem writeBatch_batchSize (s : FileW α) (b) :
    (s.writeBatch b).batchSize = s.batchSize := by
  unfold writeBatch; dsimp only; split
  · rfl
  · generalize (if s.buffer.isEmpty = true then b else (s.buffer ++ [b]).flatten) = m
    split <;> simp
@[simp] theorem writeBatch_rowsPerFile (s : FileW α) (b) :
    (s.writeBatch b).rowsPerFile = s.rowsPerFile := by
  unfold writeBatch; dsimp only; split
  · rfl
  · generalize (if s.buffer.isEmpty = true then b else (s.buffer ++ [b]).flatten) = m
    split <;> simp
@[simp] theorem step_batchSize (s : FileW α) (op) : (s.step op).batchSize = s.batchSize := by
  cases op <;> simp only [step, writeRows, writeColumns, writeTable] <;> (try split) <;> simp
@[simp] theorem step_rowsPerFile (s : FileW α) (op) : (s.step op).rowsPerFile = s.rowsPerFile := by
  cases op <;> simp only [step, writeRows, writeColumns, writeTable] <;> (try split) <;> simp

theorem closeWriter_opened (s : FileW α) : s.closeWriter.opened = none := by
  unfold closeWriter; split <;> simp_all
theorem closeWriter_buffer (s : FileW α) : s.closeWriter.buffer = s.buffer := by
  unfold closeWriter; split <;> simp_all
theorem closeWriter_count (s : FileW α) : s.closeWriter.count = s.count := by
  unfold closeWriter; split <;> simp_all
theorem closeWriter_names (s : FileW α) : s.closeWriter.names = s.names := by
  unfold closeWriter names; split <;> simp_all
theorem flush_opened (s : FileW α) : s.flush.opened = none := by
  unfold flush; exact closeWriter_opened _
theorem flush_buffer (s : FileW α) : s.flush.buffer = [] := by
  unfold flush; simp [closeWriter_buffer]
theorem flush_count (s : FileW α) : s.flush.count = 0 := by
  unfold flush; simp [closeWriter_count]

/-- Weak invariant, kept between `emit` and the count check. -/
structure WInv (s : FileW α) (h : List (List α)) : Prop where
  groups : ∃ (G : List (List (List α))) (go : List (List α)),
      G.map List.flatten = s.closed.map Prod.snd ∧
      (s.opened.map Prod.snd).getD [] = go.flatten ∧
      (s.opened = none → go = []) ∧
      G.flatten ++ go ++ ne s.buffer = h
  sorted : s.names.Pairwise (· < ·)
  see : s.sees = true

theorem Inv.weak {s : FileW α} {h} (i : Inv s h) : WInv s h := ⟨i.groups, i.sorted, i.see⟩

/-- moving `bs` (whose non-empty pieces end the history) from the buffer into the open file -/
theorem winv_emit {s : FileW α} {h} (i : WInv s h) (bs : List (List α)) (hb : s.buffer = []) :
    WInv (s.emit bs.flatten) (h ++ ne bs) := by
  obtain ⟨⟨G, go, h1, h2, h3, h4⟩, hs, hsee⟩ := i
  have hn := lt_nextName s hsee
  have hw := without_next s hsee
  cases ho : s.opened with
  | none =>
    refine ⟨⟨G, ne bs, ?_, ?_, ?_, ?_⟩, ?_, ?_⟩
    · simpa [emit, ho, hw] using h1
    · simp [emit, ho]
    · simp [emit, ho]
    · have := h3 ho; subst this
      simp [emit, ho, hb] at *
      rw [← h4]
    · simp [names, emit, ho, hw] at hs hn ⊢
      rw [List.pairwise_append]
      refine ⟨hs, by simp, ?_⟩
      intro a ha b hb
      simp at hb; subst hb
      obtain ⟨x, hx, rfl⟩ := List.mem_map.1 ha
      exact hn _ _ hx
    · simpa [emit, ho] using hsee
  | some f =>
    obtain ⟨n, c⟩ := f
    refine ⟨⟨G, go ++ ne bs, ?_, ?_, ?_, ?_⟩, ?_, ?_⟩
    · simpa [emit, ho] using h1
    · simp [ho] at h2
      simp [emit, ho, h2]
    · simp [emit, ho]
    · simp [emit, ho, hb] at *
      rw [← h4]; simp
    · simp [names, emit, ho] at hs ⊢
      exact hs
    · simpa [emit, ho] using hsee

theorem winv_congr {s s' : FileW α} {h} (i : WInv s h) (h1 : s'.closed = s.closed)
    (h2 : s'.opened = s.opened) (h3 : s'.buffer = s.buffer) (h4 : s'.sees = s.sees) :
    WInv s' h := by
  obtain ⟨hg, hs, hsee⟩ := i
  exact ⟨by rw [h1, h2, h3]; exact hg, by simpa [names, h1, h2] using hs, h4 ▸ hsee⟩

theorem winv_unbuffer {s : FileW α} {h} (i : WInv s h) :
    ∃ h', h = h' ++ ne s.buffer ∧ WInv { s with buffer := [] } h' := by
  obtain ⟨⟨G, go, h1, h2, h3, h4⟩, hs, hsee⟩ := i
  exact ⟨G.flatten ++ go, h4.symm, ⟨G, go, h1, h2, h3, by simp⟩, hs, hsee⟩

theorem closeWriter_sees (s : FileW α) : s.closeWriter.sees = s.sees := by
  unfold closeWriter; split <;> rfl

theorem inv_close {s : FileW α} {h} (i : WInv s h) (hb : s.buffer = []) (hc : s.count = 0) :
    Inv s.closeWriter h := by
  obtain ⟨⟨G, go, h1, h2, h3, h4⟩, hs, hsee⟩ := i
  refine ⟨?_, ?_, ?_, ?_, ?_, ?_⟩
  · cases ho : s.opened with
    | none =>
      refine ⟨G, [], ?_, ?_, ?_, ?_⟩
      · simpa [closeWriter, ho] using h1
      · simp [closeWriter, ho]
      · simp
      · have := h3 ho; subst this
        simpa [closeWriter, ho] using h4
    | some f =>
      refine ⟨G ++ [go], [], ?_, ?_, ?_, ?_⟩
      · simp [ho] at h2
        simp [closeWriter, ho, h1, h2]
      · simp [closeWriter, ho]
      · simp
      · simpa [closeWriter, ho] using h4
  · rw [closeWriter_names]; exact hs
  · simp [closeWriter_opened, closeWriter_count, hc]
  · right; exact closeWriter_opened s
  · right; rw [closeWriter_buffer, hb]
  · rw [closeWriter_sees]; exact hsee

theorem inv_flush_of_weak {s : FileW α} {h} (i : WInv s h) : Inv s.flush h := by
  obtain ⟨h', rfl, i'⟩ := winv_unbuffer i
  unfold flush
  by_cases hb : s.buffer = []
  · refine inv_close ?_ rfl rfl
    rw [hb] at *
    rw [ne_nil, List.append_nil]
    exact winv_congr i' (by simp) (by simp) rfl (by simp)
  · refine inv_close ?_ rfl rfl
    have := winv_emit i' s.buffer rfl
    have hne : s.buffer.isEmpty = false := by simpa using hb
    have hnext : ({ s with buffer := [] } : FileW α).nextName = s.nextName := rfl
    refine winv_congr this ?_ ?_ ?_ ?_
    · simp only [hne, Bool.false_eq_true, if_false]
      unfold emit; rw [hnext]; dsimp only; split <;> rfl
    · simp only [hne, Bool.false_eq_true, if_false]
      unfold emit; rw [hnext]; dsimp only; split <;> rfl
    · unfold emit; cases s.opened <;> rfl
    · simp only [hne, Bool.false_eq_true, if_false]
      unfold emit; cases s.opened <;> rfl

theorem inv_flush {s : FileW α} {h} (i : Inv s h) : Inv s.flush h := inv_flush_of_weak i.weak

theorem emit_buffer (s : FileW α) (b : List α) : (s.emit b).buffer = s.buffer := by
  unfold emit; split <;> rfl
theorem emit_count (s : FileW α) (b : List α) : (s.emit b).count = s.count := by
  unfold emit; split <;> rfl
theorem emit_opened_rows (s : FileW α) (b : List α) :
    ((s.emit b).opened.map Prod.snd).getD [] = (s.opened.map Prod.snd).getD [] ++ b := by
  unfold emit; cases s.opened <;> simp

theorem sum_lengths (l : List (List α)) : l.flatten.length = (l.map List.length).sum := by
  simp [List.length_flatten]

theorem inv_writeBatch {s : FileW α} {h} (i : Inv s h) (b : List α) :
    Inv (s.writeBatch b) (h ++ ne [b]) := by
  unfold writeBatch
  dsimp only
  split
  · rename_i hlt
    obtain ⟨⟨G, go, h1, h2, h3, h4⟩, hs, hc, hcl, hb, hsee⟩ := i
    refine ⟨⟨G, go, h1, h2, h3, ?_⟩, hs, hc, hcl, ?_, hsee⟩
    · rw [← h4]; simp
    · left; simp; omega
  · obtain ⟨h', rfl, i'⟩ := winv_unbuffer i.weak
    have hm : (if s.buffer.isEmpty = true then b else (s.buffer ++ [b]).flatten)
        = (s.buffer ++ [b]).flatten := by
      split
      · rename_i h; simp at h; simp [h]
      · rfl
    rw [hm]
    have e := winv_emit i' (s.buffer ++ [b]) rfl
    rw [ne_append, ← List.append_assoc] at e
    split
    · exact inv_flush_of_weak (winv_congr e rfl rfl rfl rfl)
    · rename_i hnot
      refine ⟨e.groups, e.sorted, ?_, ?_, ?_, e.see⟩
      · dsimp only
        rw [emit_opened_rows]
        have := i.cnt
        simp only [List.length_append, sum_lengths, List.map_append, List.sum_append, ← this]
        simp; omega
      · left; simpa using hnot
      · right; exact emit_buffer _ _

theorem inv_writeTable {s : FileW α} {h} (i : Inv s h) (t : List α) :
    Inv (s.writeTable t) (h ++ ne [t]) := by
  have hf := inv_flush i
  have ho := flush_opened s
  have hb := flush_buffer s
  have hc := flush_count s
  have hn := lt_nextName s.flush hf.see
  have hw := without_next s.flush hf.see
  obtain ⟨⟨G, go, h1, h2, h3, h4⟩, hs, _, _, _, hsee⟩ := hf
  have := h3 ho; subst this
  refine ⟨⟨G ++ [ne [t]], [], ?_, ?_, ?_, ?_⟩, ?_, ?_, ?_, ?_, hsee⟩
  · simp [writeTable, h1, hw]
  · simp [writeTable, ho]
  · simp
  · rw [hb] at h4; simp at h4
    simp [writeTable, hb, h4]
  · simp [writeTable, names, ho, hw] at hs hn ⊢
    rw [List.pairwise_append]
    refine ⟨hs, by simp, ?_⟩
    intro a ha b hb
    simp at hb; subst hb
    obtain ⟨x, hx, rfl⟩ := List.mem_map.1 ha
    exact hn _ _ hx
  · simp [writeTable, ho, hc]
  · right; simp [writeTable, ho]
  · right; simp [writeTable, hb]

theorem inv_step {s : FileW α} {h} (i : Inv s h) (op : WOp α) :
    Inv (s.step op) (h ++ ne [op.payload]) := by
  cases op with
  | rows l =>
    simp only [step, writeRows, WOp.payload]
    split
    · rename_i hl; simp at hl; subst hl; simpa [ne] using i
    · exact inv_writeBatch i l
  | columns c =>
    cases c with
    | none => simpa [step, writeColumns, WOp.payload, ne] using i
    | some c => simpa [step, writeColumns, WOp.payload] using inv_writeBatch i c
  | batch b => exact inv_writeBatch i b
  | table t => exact inv_writeTable i t
  | flush => simpa [WOp.payload, ne, step] using inv_flush i

theorem inv_run_aux (ops : List (WOp α)) : ∀ {s : FileW α} {h}, Inv s h →
    Inv (s.run ops) (h ++ payloads ops) := by
  induction ops with
  | nil => intro s h i; simpa [run, payloads] using i
  | cons op ops ih =>
    intro s h i
    have := ih (inv_step i op)
    have e : payloads (op :: ops) = ne [op.payload] ++ payloads ops := by
      rw [show op :: ops = [op] ++ ops from rfl, payloads_append, payloads_single]
    rw [e, ← List.append_assoc]
    exact this

theorem inv_run (b r : Nat) (ext : List Nat) (ops : List (WOp α)) :
    Inv ((create b r true ext).run ops) (payloads ops) := by
  simpa using inv_run_aux ops (inv_create b r ext)

theorem run_append (s : FileW α) (a b : List (WOp α)) : s.run (a ++ b) = (s.run a).run b := by
  simp [run]

@[simp] theorem run_batchSize (ops : List (WOp α)) (s : FileW α) :
    (s.run ops).batchSize = s.batchSize := by
  induction ops generalizing s with
  | nil => rfl
  | cons a l ih => exact (ih (s.step a)).trans (step_batchSize s a)
@[simp] theorem run_rowsPerFile (ops : List (WOp α)) (s : FileW α) :
    (s.run ops).rowsPerFile = s.rowsPerFile := by
  induction ops generalizing s with
  | nil => rfl
  | cons a l ih => exact (ih (s.step a)).trans (step_rowsPerFile s a)

theorem closeWriter_closed_prefix (s : FileW α) : s.closed <+: s.closeWriter.closed := by
  unfold closeWriter; split
  · exact List.prefix_append _ _
  · exact List.prefix_rfl

theorem emit_closed (s : FileW α) (b : List α) (hsee : s.sees = true) :
    (s.emit b).closed = s.closed := by
  unfold emit; split
  · rfl
  · exact without_next s hsee

theorem emit_sees (s : FileW α) (b : List α) : (s.emit b).sees = s.sees := by
  unfold emit; split <;> rfl

theorem flush_sees (s : FileW α) : s.flush.sees = s.sees := by
  unfold flush; dsimp only; rw [closeWriter_sees]; dsimp only; split
  · rfl
  · exact emit_sees _ _

theorem flush_closed_prefix (s : FileW α) (hsee : s.sees = true) : s.closed <+: s.flush.closed := by
  unfold flush
  dsimp only
  split
  · exact closeWriter_closed_prefix { s with buffer := [], count := 0 }
  · refine List.IsPrefix.trans ?_ (closeWriter_closed_prefix _)
    simp [emit_closed s _ hsee]

theorem writeBatch_sees (s : FileW α) (b : List α) : (s.writeBatch b).sees = s.sees := by
  unfold writeBatch; dsimp only; split
  · rfl
  · generalize (if s.buffer.isEmpty = true then b else (s.buffer ++ [b]).flatten) = m
    split
    · rw [flush_sees]; exact emit_sees _ _
    · exact emit_sees _ _

theorem step_sees (s : FileW α) (op : WOp α) : (s.step op).sees = s.sees := by
  cases op with
  | rows l =>
    simp only [step, writeRows]; split
    · rfl
    · exact writeBatch_sees s l
  | columns c => cases c with
    | none => rfl
    | some c => exact writeBatch_sees s c
  | batch b => exact writeBatch_sees s b
  | table t => exact flush_sees s
  | flush => exact flush_sees s

theorem writeBatch_closed_prefix (s : FileW α) (b : List α) (hsee : s.sees = true) :
    s.closed <+: (s.writeBatch b).closed := by
  unfold writeBatch; dsimp only; split
  · exact List.prefix_rfl
  · generalize (if s.buffer.isEmpty = true then b else (s.buffer ++ [b]).flatten) = m
    have e : ({ s with buffer := [] } : FileW α).sees = true := hsee
    split
    · refine List.IsPrefix.trans ?_ (flush_closed_prefix _ (by dsimp only; rw [emit_sees]; exact hsee))
      dsimp only
      rw [emit_closed _ _ e]
      exact List.prefix_rfl
    · dsimp only
      rw [emit_closed _ _ e]
      exact List.prefix_rfl

theorem step_closed_prefix (s : FileW α) (op : WOp α) (hsee : s.sees = true) :
    s.closed <+: (s.step op).closed := by
  cases op with
  | rows l =>
    simp only [step, writeRows]; split
    · exact List.prefix_rfl
    · exact writeBatch_closed_prefix s l hsee
  | columns c => cases c with
    | none => exact List.prefix_rfl
    | some c => exact writeBatch_closed_prefix s c hsee
  | batch b => exact writeBatch_closed_prefix s b hsee
  | table t =>
    refine (flush_closed_prefix s hsee).trans ?_
    simp only [step, writeTable]
    rw [without_next s.flush (by rw [flush_sees]; exact hsee)]
    exact List.prefix_append _ _
  | flush => exact flush_closed_prefix s hsee

theorem run_closed_prefix (ops : List (WOp α)) (s : FileW α) (hsee : s.sees = true) :
    s.closed <+: (s.run ops).closed := by
  induction ops generalizing s with
  | nil => exact List.prefix_rfl
  | cons a l ih => exact (step_closed_prefix s a hsee).trans (ih (s.step a) (by rw [step_sees]; exact hsee))

/-- any listing of files with strictly increasing names is read in name order -/
theorem orderedTables_perm {files listing : List (Nat × List α)}
    (hs : (files.map Prod.fst).Pairwise (· < ·)) (hp : listing.Perm files) :
    orderedTables listing = files.map Prod.snd := by
  unfold orderedTables
  congr 1
  have hs' : files.Pairwise (fun a b => a.1 < b.1) := List.pairwise_map.1 hs
  have hsort : (listing.mergeSort (fun a b => decide (a.1 ≤ b.1))).Pairwise
      (fun a b => decide (a.1 ≤ b.1) = true) :=
    List.pairwise_mergeSort (le := fun a b => decide (a.1 ≤ b.1))
      (by intro a b c; simp; omega) (by intro a b; simp; omega) listing
  have hperm : (listing.mergeSort (fun a b => decide (a.1 ≤ b.1))).Perm files :=
    (List.mergeSort_perm _ _).trans hp
  refine List.Perm.eq_of_pairwise (le := fun a b => a.1 ≤ b.1) ?_ ?_ ?_ hperm
  · intro a b ha hb h1 h2
    have hab : a.1 = b.1 := by omega
    have hb' : b ∈ files := hb
    have ha' : a ∈ files := hperm.mem_iff.1 ha
    -- names are distinct
    have key : ∀ (l : List (Nat × List α)), l.Pairwise (fun a b => a.1 < b.1) →
        ∀ x ∈ l, ∀ y ∈ l, x.1 = y.1 → x = y := by
      intro l hl
      induction l with
      | nil => simp
      | cons c l ih =>
        rw [List.pairwise_cons] at hl
        intro x hx y hy hxy
        simp only [List.mem_cons] at hx hy
        rcases hx with rfl | hx <;> rcases hy with rfl | hy
        · rfl
        · have := hl.1 y hy; omega
        · have := hl.1 x hx; omega
        · exact ih hl.2 x hx y hy hxy
    exact key files hs' a ha' b hb' hab
  · exact hsort.imp (by simp)
  · exact hs'.imp (by intro a b; omega)

end FileW

/-! ### In-memory writer -/
namespace MemW

structure Inv (s : MemW α) : Prop where
  buf : (s.buffer.map List.length).sum < s.batchSize ∨ s.buffer = []

theorem flush_table (s : MemW α) : s.flush.table = s.table ++ s.buffer.flatten := by
  unfold flush; split
  · rename_i h; simp at h; simp [h]
  · rfl
theorem flush_buffer (s : MemW α) : s.flush.buffer = [] := by
  unfold flush; split
  · rename_i h; simpa using h
  · rfl

/-- a batch goes to the end of "table then buffer" -/
theorem writeBatch_contents (s : MemW α) (b : List α) :
    (s.writeBatch b).table ++ (s.writeBatch b).buffer.flatten
      = s.table ++ s.buffer.flatten ++ b := by
  unfold writeBatch writeTable; dsimp only; split
  · simp
  · split
    · rename_i h; simp at h; simp [h]
    · simp

theorem writeBatch_batchSize (s : MemW α) (b : List α) :
    (s.writeBatch b).batchSize = s.batchSize := by
  unfold writeBatch writeTable; dsimp only; split
  · rfl
  · split <;> rfl

theorem step_batchSize (s : MemW α) (op) : (s.step op).batchSize = s.batchSize := by
  cases op <;> simp only [step, writeRows, writeColumns, writeTable, flush] <;> (try split) <;>
    simp [writeBatch_batchSize]

theorem run_batchSize (ops : List (WOp α)) (s : MemW α) :
    (s.run ops).batchSize = s.batchSize := by
  induction ops generalizing s with
  | nil => rfl
  | cons a l ih => exact (ih (s.step a)).trans (step_batchSize s a)

theorem inv_writeBatch {s : MemW α} (_ : Inv s) (b : List α) : Inv (s.writeBatch b) := by
  constructor
  unfold writeBatch writeTable; dsimp only; split
  · left; simp; omega
  · split
    · right; rename_i h; simpa using h
    · right; rfl

theorem inv_step {s : MemW α} (i : Inv s) (op) : Inv (s.step op) := by
  cases op with
  | rows l => simp only [step, writeRows]; split; exact i; exact inv_writeBatch i l
  | columns c => cases c with
    | none => exact i
    | some c => exact inv_writeBatch i c
  | batch b => exact inv_writeBatch i b
  | table t => exact ⟨i.buf⟩
  | flush => exact ⟨Or.inr (flush_buffer s)⟩

theorem inv_run (ops : List (WOp α)) {s : MemW α} (i : Inv s) : Inv (s.run ops) := by
  induction ops generalizing s with
  | nil => exact i
  | cons a l ih => exact ih (inv_step i a)

theorem step_contents_perm (s : MemW α) (op : WOp α) :
    ((s.step op).table ++ (s.step op).buffer.flatten).Perm
      (s.table ++ s.buffer.flatten ++ op.payload) := by
  cases op with
  | rows l =>
    simp only [step, writeRows, WOp.payload]; split
    · rename_i h; simp at h; simp [h]
    · rw [writeBatch_contents]
  | columns c => cases c with
    | none => simp [step, writeColumns, WOp.payload]
    | some c => simp only [step, writeColumns, WOp.payload]; rw [writeBatch_contents]; simp
  | batch b => simp only [step, WOp.payload]; rw [writeBatch_contents]
  | table t =>
    simp only [step, writeTable, WOp.payload, List.append_assoc]
    exact List.Perm.append_left _ List.perm_append_comm
  | flush => simp [step, WOp.payload, flush_table, flush_buffer]

/-- order is kept by every call except `write_table` on a non-empty buffer -/
theorem step_contents_eq (s : MemW α) (op : WOp α)
    (h : ∀ t, op = .table t → s.buffer.flatten = []) :
    (s.step op).table ++ (s.step op).buffer.flatten
      = s.table ++ s.buffer.flatten ++ op.payload := by
  cases op with
  | rows l =>
    simp only [step, writeRows, WOp.payload]; split
    · rename_i h; simp at h; simp [h]
    · rw [writeBatch_contents]
  | columns c => cases c with
    | none => simp [step, writeColumns, WOp.payload]
    | some c => simp only [step, writeColumns, WOp.payload]; rw [writeBatch_contents]; simp
  | batch b => simp only [step, WOp.payload]; rw [writeBatch_contents]
  | table t =>
    have := h t rfl
    simp [step, writeTable, WOp.payload, this]
  | flush => simp [step, WOp.payload, flush_table, flush_buffer]

theorem run_contents_perm (ops : List (WOp α)) (s : MemW α) :
    ((s.run ops).table ++ (s.run ops).buffer.flatten).Perm
      (s.table ++ s.buffer.flatten ++ written ops) := by
  induction ops generalizing s with
  | nil => simp [run, written]
  | cons op ops ih =>
    have h1 := ih (s.step op)
    have h2 := (step_contents_perm s op).append_right (written ops)
    refine h1.trans (h2.trans ?_)
    simp [written]

end MemW
end Verif.Cache
