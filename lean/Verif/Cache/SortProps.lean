import Verif.Cache.SortLemmas
import Verif.Cache.WriterProps

/-! # Properties C05-C07: the external sort -/

namespace Verif.Cache

variable {σ α K : Type} [LinearOrder K]

/-- What a reader of an on-disk cache sees, for some order of the directory listing. -/
def ReadsAs (s : FileW α) (rows : List α) : Prop :=
  s.opened = none ∧ s.buffer = [] ∧
    ∀ listing, listing.Perm s.closed → (FileW.orderedTables listing).flatten = rows

theorem readsAs_flush (b r : Nat) (ops : List (WOp α)) :
    ReadsAs ((FileW.create b r).run (ops ++ [.flush])) (written ops) := C01_file_roundtrip b r [] ops

/-- The rows that reach an on-disk sink. -/
theorem sortToFile_reads (key : α → K) (localSort : List σ → List α)
    (batching : List α → List (List α)) (hb : IsBatching batching)
    (hsort : ∀ t, SortedBy key (localSort t)) (tables : List (List σ)) (b r : Nat) :
    ∃ out, ReadsAs (sortToFile key localSort batching tables (FileW.create b r)) out ∧
      SortedBy key out ∧ StableOf key (tables.map localSort).flatten out := by
  unfold sortToFile
  split
  · rename_i h1
    obtain ⟨t, rfl⟩ := List.length_eq_one_iff.1 h1
    refine ⟨localSort t, ?_, hsort t, ?_⟩
    · have := readsAs_flush b r [WOp.table (localSort t)]
      simpa [written, WOp.payload] using this
    · intro k; simp
  · have hmid := C04_file_alignment b r [] (tables.map (fun t => WOp.table (localSort t)))
    dsimp only
    -- the intermediate files
    have hfiles : FileW.orderedTables ((FileW.create b r : FileW α).run
        (tables.map (fun t => WOp.table (localSort t)) ++ [.flush])).closed
        = tables.map localSort := by
      have hn := (FileW.inv_run b r []
        (tables.map (fun t => WOp.table (localSort t)) ++ [WOp.flush])).sorted
      have hnames : (((FileW.create b r : FileW α).run
        (tables.map (fun t => WOp.table (localSort t)) ++ [.flush])).closed.map
          Prod.fst).Pairwise (· < ·) := by
        rw [FileW.names, List.pairwise_append] at hn; exact hn.1
      rw [FileW.orderedTables_perm hnames (List.Perm.refl _)]
      -- contents of the files
      have hrun : ∀ (ts : List (List σ)) (s : FileW α), s.sees = true → s.opened = none → s.buffer = [] →
          (s.run (ts.map (fun t => WOp.table (localSort t)))).closed.map Prod.snd
            = s.closed.map Prod.snd ++ ts.map localSort ∧
          (s.run (ts.map (fun t => WOp.table (localSort t)))).opened = none ∧
          (s.run (ts.map (fun t => WOp.table (localSort t)))).buffer = [] := by
        intro ts
        induction ts with
        | nil => intro s _ h1 h2; simp [FileW.run, h1, h2]
        | cons t ts ih =>
          intro s h0 h1 h2
          have hfl : s.flush.closed = s.closed := by
            simp [FileW.flush, FileW.closeWriter, h1, h2]
          have e1 : (s.step (.table (localSort t))).opened = none := by
            simp [FileW.step, FileW.writeTable, FileW.flush_opened]
          have e2 : (s.step (.table (localSort t))).buffer = [] := by
            simp [FileW.step, FileW.writeTable, FileW.flush_buffer]
          have e3 : (s.step (.table (localSort t))).closed.map Prod.snd
              = s.closed.map Prod.snd ++ [localSort t] := by
            have hw := FileW.without_next s.flush (by rw [FileW.flush_sees]; exact h0)
            rw [hfl] at hw
            simp [FileW.step, FileW.writeTable, hw, hfl]
          obtain ⟨i1, i2, i3⟩ := ih _ (by rw [FileW.step_sees]; exact h0) e1 e2
          refine ⟨?_, i2, i3⟩
          have : s.run ((t :: ts).map (fun t => WOp.table (localSort t)))
              = (s.step (.table (localSort t))).run (ts.map (fun t => WOp.table (localSort t))) := rfl
          rw [this, i1, e3]; simp
      have := hrun tables (FileW.create b r) rfl rfl rfl
      rw [FileW.run_append]
      have hf : ∀ s : FileW α, s.opened = none → s.buffer = [] → (s.run [.flush]).closed = s.closed := by
        intro s h1 h2; simp [FileW.run, FileW.step, FileW.flush, FileW.closeWriter, h1, h2]
      rw [hf _ this.2.1 this.2.2, this.1]
      simp [FileW.create]
    have hcreate : (FileW.create (FileW.create b r : FileW α).batchSize
        (FileW.create b r : FileW α).rowsPerFile : FileW α) = FileW.create b r := rfl
    rw [hcreate, hfiles]
    have hne : ∀ f ∈ (tables.map localSort).map batching, [] ∉ f := by
      intro f hf
      obtain ⟨t, _, rfl⟩ := List.mem_map.1 hf
      exact (hb t).2
    have hs : ∀ f ∈ (tables.map localSort).map batching, SortedBy key f.flatten := by
      intro f hf
      obtain ⟨t, ht, rfl⟩ := List.mem_map.1 hf
      obtain ⟨t', _, rfl⟩ := List.mem_map.1 ht
      rw [(hb _).1]; exact hsort t'
    have hflat : ((tables.map localSort).map batching).flatten.flatten
        = (tables.map localSort).flatten := by
      rw [List.flatten_flatten, List.map_map]
      congr 1
      conv => rhs; rw [← List.map_id (tables.map localSort)]
      apply List.map_congr_left
      intro t _
      exact (hb t).1
    obtain ⟨h1, h2⟩ := mergeRows_sorted key _ hne hs
    rw [hflat] at h2
    refine ⟨_, ?_, h1, h2⟩
    have := readsAs_flush b r
      ((mergeRows key ((tables.map localSort).map batching)).map (fun x => WOp.batch [x]))
    simpa [sinkCalls, written, WOp.payload, List.flatMap_map] using this

/-! ## C05 -/

/-- `x` may come before `y`: the first sort column in which they differ decides, in its direction. -/
def InOrder : List (String × Dir) → (String → Rat) → (String → Rat) → Prop
  | [], _, _ => True
  | (name, .asc) :: rest, x, y => x name < y name ∨ (x name = y name ∧ InOrder rest x y)
  | (name, .desc) :: rest, x, y => y name < x name ∨ (x name = y name ∧ InOrder rest x y)

theorem inOrder_iff (sorting : List (String × Dir)) (x y : String → Rat) :
    sortArgs sorting x ≤ sortArgs sorting y ↔ InOrder sorting x y := by
  induction sorting with
  | nil => simp [sortArgs, InOrder]
  | cons nd rest ih =>
    obtain ⟨name, dir⟩ := nd
    have e : ∀ z, sortArgs ((name, dir) :: rest) z = (match dir with | .desc => - z name | .asc => z name) :: sortArgs rest z := fun _ => rfl
    have step : ∀ (a b : Rat) (l m : List Rat), a :: l ≤ b :: m ↔ a < b ∨ (a = b ∧ l ≤ m) := by
      intro a b l m
      have h1 : b :: m < a :: l ↔ b < a ∨ (b = a ∧ m < l) := List.cons_lt_cons_iff
      rw [← not_lt, h1, ← not_lt (b := l)]
      rcases lt_trichotomy a b with h | h | h
      · have h2 := not_lt.2 h.le
        have h3 := h.ne'
        tauto
      · subst h
        have h2 := lt_irrefl a
        tauto
      · have h2 := not_lt.2 h.le
        have h3 := h.ne'
        tauto
    rw [e, e, step, ih]
    cases dir with
    | asc => rfl
    | desc =>
      change (-x name < -y name ∨ (-x name = -y name ∧ InOrder rest x y)) ↔ (y name < x name ∨ (x name = y name ∧ InOrder rest x y))
      rw [neg_lt_neg_iff, neg_inj]

/-- **C05.** Sorting any source (any number of fragments, any rows) into an on-disk cache yields a
cache whose rows are ordered by the sort columns and directions, are a permutation of the source rows, and
keep the source order among rows that are equal in the sort columns. For every way of cutting fragments into non-empty batches. -/
theorem C05_sort_file (sorting : List (String × Dir)) (batching : List (String → Rat) → List (List (String → Rat)))
    (hb : IsBatching batching) (tables : List (List (String → Rat))) (batchSize rowsPerFile : Nat) :
    ∃ out, ReadsAs (sortToFile (sortArgs sorting) (sortBy (sortArgs sorting)) batching tables
        (FileW.create batchSize rowsPerFile)) out ∧
      out.Perm tables.flatten ∧
      out.Pairwise (InOrder sorting) ∧
      ∀ v : String → Rat, out.filter (fun x => decide (∀ nd ∈ sorting, x nd.1 = v nd.1))
        = tables.flatten.filter (fun x => decide (∀ nd ∈ sorting, x nd.1 = v nd.1)) := by
  obtain ⟨out, h1, h2, h3⟩ := sortToFile_reads (sortArgs sorting) (sortBy (sortArgs sorting))
    batching hb (sortBy_sorted _) tables batchSize rowsPerFile
  have hst := stable_flatten_map (f := sortBy (sortArgs sorting)) tables (sortBy_stable (sortArgs sorting))
  refine ⟨out, h1, (StableOf.perm (key := sortArgs sorting) (fun k => (h3 k).trans (hst k))), ?_, ?_⟩
  · exact List.Pairwise.imp (fun h => (inOrder_iff sorting _ _).1 h) h2
  · intro v
    have e : ∀ x : String → Rat, decide (∀ nd ∈ sorting, x nd.1 = v nd.1) = decide (sortArgs sorting x = sortArgs sorting v) := by
      intro x
      rw [decide_eq_decide]
      unfold sortArgs
      rw [List.map_inj_left]
      constructor
      · intro h nd hnd
        have := h nd hnd
        cases nd.2 <;> simp [this]
      · intro h nd hnd
        have := h nd hnd
        revert this
        cases nd.2 <;> simp
    simp only [e]
    have := (h3 (sortArgs sorting v)).trans (hst (sortArgs sorting v))
    convert this using 2 <;> (funext x; congr)

/-- **C05 (custom table sort).** With `table_sort_override` the output is a sorted permutation of the
overridden tables, with equal keys in their order, provided the override sorts each table. (Used by the detection ranking, where
the override also drops rows.) -/
theorem C05_sort_override (key : α → K) (override : List σ → List α)
    (hsort : ∀ t, SortedBy key (override t))
    (batching : List α → List (List α)) (hb : IsBatching batching) (tables : List (List σ))
    (batchSize rowsPerFile : Nat) :
    ∃ out, ReadsAs (sortToFile key override batching tables (FileW.create batchSize rowsPerFile)) out ∧
      out.Perm (tables.map override).flatten ∧ out.Pairwise (fun x y => key x ≤ key y) ∧
      ∀ k, out.filter (fun x => decide (key x = k)) = (tables.map override).flatten.filter (fun x => decide (key x = k)) := by
  obtain ⟨out, h1, h2, h3⟩ := sortToFile_reads key override batching hb hsort tables
    batchSize rowsPerFile
  exact ⟨out, h1, h3.perm, h2, h3⟩

/-- Reading a fragment in slices of `n` rows is a batching, so the hypotheses of C05 are met by the
reader the code uses. -/
example (n : Nat) : IsBatching (chunksOf (α := α) n) := chunksOf_isBatching n

/-- Negating the values of a descending column does order the column downwards. -/
theorem C05_descending (name : String) (x y : String → Rat) :
    sortArgs [(name, .desc)] x ≤ sortArgs [(name, .desc)] y ↔ y name ≤ x name := by
  simp only [sortArgs, List.map_cons, List.map_nil]
  constructor
  · intro h
    by_contra hc
    rw [not_le] at hc
    have : [-y name] < [-x name] := List.Lex.rel (by simpa using hc)
    exact absurd h (not_le.2 this)
  · intro h
    rcases lt_or_eq_of_le h with h | h
    · exact le_of_lt (List.Lex.rel (by simpa using h))
    · rw [h]

/-! ## C07 -/

/-- **C07.** The sorted sequence does not depend on the batch size of the readers, on the
fragmentation of the source or on the configuration of the sink. -/
theorem C07_sort_deterministic (key : α → K) (batching₁ batching₂ : List α → List (List α))
    (hb₁ : IsBatching batching₁) (hb₂ : IsBatching batching₂) (tables₁ tables₂ : List (List α))
    (hsame : tables₁.flatten = tables₂.flatten) (b₁ r₁ b₂ r₂ : Nat) (out₁ out₂ : List α)
    (h₁ : ReadsAs (sortToFile key (sortBy key) batching₁ tables₁ (FileW.create b₁ r₁)) out₁)
    (h₂ : ReadsAs (sortToFile key (sortBy key) batching₂ tables₂ (FileW.create b₂ r₂)) out₂) :
    out₁ = out₂ := by
  obtain ⟨o₁, a1, a2, a3⟩ := sortToFile_reads key (sortBy key) batching₁ hb₁ (sortBy_sorted key)
    tables₁ b₁ r₁
  obtain ⟨o₂, c1, c2, c3⟩ := sortToFile_reads key (sortBy key) batching₂ hb₂ (sortBy_sorted key)
    tables₂ b₂ r₂
  have e1 : out₁ = o₁ := (h₁.2.2 _ (List.Perm.refl _)).symm.trans (a1.2.2 _ (List.Perm.refl _))
  have e2 : out₂ = o₂ := (h₂.2.2 _ (List.Perm.refl _)).symm.trans (c1.2.2 _ (List.Perm.refl _))
  rw [e1, e2]
  have s1 := stable_flatten_map (f := sortBy key) tables₁ (sortBy_stable key)
  have s2 := stable_flatten_map (f := sortBy key) tables₂ (sortBy_stable key)
  apply sorted_stable_unique a2 c2
  intro k
  rw [a3 k, s1 k, c3 k, s2 k, hsame]

/-! ## C06 -/

/-- The full statement of C06 for in-memory sinks. -/
def SortMemCorrect : Prop :=
  ∀ (batching : List Nat → List (List Nat)), IsBatching batching →
    ∀ (tables : List (List Nat)) (batchSize : Nat),
      SortedBy id (sortToMem id (sortBy id) batching tables (MemW.create batchSize)).read

/-- What an in-memory sink receives when the source has not exactly one table: the concatenation of
the locally sorted tables. -/
theorem C06_mem_content_partial (key : α → K) (batching : List α → List (List α))
    (hb : IsBatching batching) (tables : List (List α)) (batchSize : Nat) :
    (sortToMem key (sortBy key) batching tables (MemW.create batchSize)).read
      = (tables.map (sortBy key)).flatten := by
  have hnotable : ∀ rows : List α, TablesAfterFlush (sinkCalls rows) := by
    intro rows pre t post h
    have : WOp.table t ∈ sinkCalls rows := by rw [h]; simp
    simp [sinkCalls] at this
  have htables : ∀ ts : List (List α),
      TablesAfterFlush (ts.map (fun t => WOp.table (sortBy key t))) := by
    intro ts pre t post h
    rcases List.eq_nil_or_concat' pre with rfl | ⟨pre', x, rfl⟩
    · exact Or.inl rfl
    · right
      have : x ∈ ts.map (fun t => WOp.table (sortBy key t)) := by rw [h]; simp
      obtain ⟨t', _, rfl⟩ := List.mem_map.1 this
      exact ⟨pre', Or.inr ⟨_, rfl⟩⟩
  have hw : ∀ ts : List (List α), written (ts.map (fun t => WOp.table (sortBy key t)))
      = (ts.map (sortBy key)).flatten := by
    intro ts; simp only [written, List.flatMap_map, WOp.payload]; rw [List.flatMap_def]
  unfold sortToMem
  split
  · rename_i h1
    obtain ⟨t, rfl⟩ := List.length_eq_one_iff.1 h1
    simp [MemW.run, MemW.step, MemW.writeTable, MemW.create, MemW.read, MemW.flush]
  · dsimp only
    rw [C02_mem_order_partial batchSize _ (hnotable _), written_sinkCalls]
    have e : (MemW.create (MemW.create batchSize : MemW α).batchSize : MemW α)
        = MemW.create batchSize := rfl
    rw [e, C02_mem_order_partial batchSize _ (htables tables), hw]
    simp only [List.map_cons, List.map_nil]
    rw [mergeRows_single _ _ (hb _).2, (hb _).1]

/-- **C06 is false of the code**: a source with two files sorted into an in-memory cache comes out
as the concatenation of the two files. -/
theorem C06_violation : ¬ SortMemCorrect := by
  intro h
  have hb : IsBatching (fun t : List Nat => if t.isEmpty then [] else [t]) := by
    intro t; cases t <;> simp
  have := h _ hb [[2], [1]] 10
  rw [C06_mem_content_partial id _ hb] at this
  simp [SortedBy, sortBy] at this

/-- **C06 (partial).** With an in-memory sink no row is lost or invented, and if the source has one
table (always the case for an in-memory source) the result is sorted. Missing: sorted output for a
source with several files, which is false (`C06_violation`). -/
theorem C06_mem_partial (key : α → K) (batching : List α → List (List α))
    (hb : IsBatching batching) (tables : List (List α)) (batchSize : Nat) :
    let out := (sortToMem key (sortBy key) batching tables (MemW.create batchSize)).read
    out.Perm tables.flatten ∧ (tables.length = 1 → out.Pairwise (fun x y => key x ≤ key y)) := by
  intro out
  have hout : out = (tables.map (sortBy key)).flatten :=
    C06_mem_content_partial key batching hb tables batchSize
  constructor
  · rw [hout]
    exact (stable_flatten_map (f := sortBy key) tables (sortBy_stable key)).perm
  · intro h1
    obtain ⟨t, rfl⟩ := List.length_eq_one_iff.1 h1
    rw [hout]
    have := sortBy_sorted key t
    simpa [SortedBy] using this

/-- The empty-batch assumption of `IsBatching` matters: an empty batch in the middle of a fragment
ends the fragment, and the rows after it are lost. -/
theorem C05_empty_batch_loses_rows :
    mergeRows (id : Nat → Nat) [[[1], [], [2]], [[3]]] = [1, 3] := by decide

end Verif.Cache
