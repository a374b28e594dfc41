import Verif.Cache.Lifecycle

/-! # Properties C09-C11: cache directories -/

namespace Verif.Cache.Life

variable {σ : Type}

/-! ## C09 -/

/-- The full statement of C09. -/
def CreateLoadRoundtrip (σ : Type) : Prop :=
  ∀ c : Cfg σ, load (final .missing (create c false .missing).1) = .ok c

/-- **C09 is false of the code**: a cache created with `batch_size=0` cannot be loaded. -/
theorem C09_violation : ¬ CreateLoadRoundtrip Unit := by
  intro h
  have := h ⟨0, 1, "snappy", ()⟩
  simp [create, Node.exists, mkAndWrite, final, load] at this

/-- **C09 (partial).** Creation from scratch succeeds, and the configuration is restored exactly if
both sizes are positive and the compression name is not empty; otherwise `load` raises `KeyError`. -/
theorem C09_create_load_partial (c : Cfg σ) :
    (create c false .missing).2 = .ok () ∧
    ((0 < c.batchSize ∧ 0 < c.rowsPerFile ∧ c.compression ≠ "") →
      load (final .missing (create c false .missing).1) = .ok c) ∧
    (¬ (0 < c.batchSize ∧ 0 < c.rowsPerFile ∧ c.compression ≠ "") →
      load (final .missing (create c false .missing).1) = .error .keyError) := by
  refine ⟨rfl, ?_, ?_⟩
  · rintro ⟨h1, h2, h3⟩
    have h1' : c.batchSize ≠ 0 := by omega
    have h2' : c.rowsPerFile ≠ 0 := by omega
    simp [create, Node.exists, mkAndWrite, final, load, h1', h2', h3]
  · intro h
    simp only [create, Node.exists, mkAndWrite, final, load]
    simp only [Bool.and_false, Bool.false_eq_true, if_false, List.getLast_cons_cons,
      List.getLast_singleton]
    by_cases h1 : c.batchSize = 0
    · simp [h1]
    · by_cases h2 : c.rowsPerFile = 0
      · simp [h1, h2]
      · by_cases h3 : c.compression = ""
        · simp [h1, h2, h3]
        · exact absurd ⟨by omega, by omega, h3⟩ h

/-! ## C10 -/

/-- A later `create(..., delete_if_exists=True)` succeeds. -/
def Recoverable (n : Node σ) : Prop := ∀ c, (create c true n).2 = .ok ()

/-- A configuration that can be loaded. -/
def Cfg.Valid (c : Cfg σ) : Prop := 0 < c.batchSize ∧ 0 < c.rowsPerFile ∧ c.compression ≠ ""

theorem load_dir_ok {d : DirSt σ} {c : Cfg σ} :
    load (.dir d) = .ok c ↔ d.cfg = some (.full c) ∧ c.Valid := by
  unfold load
  constructor
  · intro h
    dsimp only at h
    split at h
    · simp at h
    · simp at h
    · rename_i c' hc
      split at h
      · simp at h
      · split at h
        · simp at h
        · split at h
          · simp at h
          · simp at h
            subst h
            exact ⟨hc, by omega, by omega, by assumption⟩
  · rintro ⟨h, h1, h2, h3⟩
    have h1' : c.batchSize ≠ 0 := by omega
    have h2' : c.rowsPerFile ≠ 0 := by omega
    simp [h, h1', h2', h3]

theorem delete_dir_ok {d : DirSt σ} {c : Cfg σ} (hl : load (.dir d) = .ok c) (ho : d.other = []) :
    delete (.dir d) = (unlinkAll d d.parquet ++
      [.dir { d with parquet := [], cfg := none }, .missing], .ok ()) := by
  simp [delete, hl, ho]

theorem final_append_single (n : Node σ) (tr : List (Node σ)) (m : Node σ) :
    final n (tr ++ [m]) = m := by
  unfold final; simp only [← List.cons_append]; exact List.getLast_concat

/-- The states from which creation with `delete_if_exists` works: nothing at the path, or a complete
cache without foreign files. -/
theorem recoverable_iff (n : Node σ) (c₀ : Cfg σ) :
    Recoverable n ↔ n = .missing ∨ ∃ d c, n = .dir d ∧ d.cfg = some (.full c) ∧ c.Valid ∧
      d.other = [] := by
  constructor
  · intro h
    cases n with
    | missing => exact Or.inl rfl
    | file =>
      have := h c₀
      simp [create, Node.exists, delete, load] at this
    | dir d =>
      right
      have h0 := h c₀
      cases hl : load (.dir d) with
      | error e =>
        simp [create, Node.exists, delete, hl] at h0
      | ok c =>
        obtain ⟨h1, h2⟩ := load_dir_ok.1 hl
        by_cases ho : d.other = []
        · exact ⟨d, c, rfl, h1, h2, ho⟩
        · simp [create, Node.exists, delete, hl, ho] at h0
  · rintro (rfl | ⟨d, c, rfl, h1, h2, h3⟩) c'
    · simp [create, Node.exists, mkAndWrite]
    · have hl : load (.dir d) = .ok c := load_dir_ok.2 ⟨h1, h2⟩
      have e : unlinkAll d d.parquet ++ [Node.dir { d with parquet := [], cfg := none }, .missing]
          = (unlinkAll d d.parquet ++ [Node.dir { d with parquet := [], cfg := none }]) ++ [.missing] := by
        simp
      simp only [create, Node.exists, Bool.and_self, if_true, delete_dir_ok hl h3]
      rw [e, final_append_single]
      simp [mkAndWrite]

/-- The full statement of C10: whatever the crash point, creation can be repeated. -/
def CreateRestartable (σ : Type) : Prop :=
  ∀ (c : Cfg σ) (flag : Bool) (n : Node σ), c.Valid → Recoverable n →
    ∀ s ∈ (create c flag n).1, Recoverable s

/-- **C10 is false of the code**: a crash between `mkdir` and the end of writing `.cfg` leaves a
directory on which `create(delete_if_exists=True)` fails. -/
theorem C10_violation : ¬ CreateRestartable Unit := by
  intro h
  have hv : (⟨1, 1, "snappy", ()⟩ : Cfg Unit).Valid := ⟨by decide, by decide, by decide⟩
  have := h ⟨1, 1, "snappy", ()⟩ false .missing hv
    ((recoverable_iff _ ⟨1, 1, "snappy", ()⟩).2 (Or.inl rfl)) (.dir ⟨[], none, []⟩)
    (by simp [create, Node.exists, mkAndWrite])
  have := this ⟨1, 1, "snappy", ()⟩
  simp [create, Node.exists, delete, load] at this

/-- The stuck states: an empty directory whose `.cfg` is absent or incomplete. -/
def Stuck (n : Node σ) : Prop :=
  n = .dir ⟨[], none, []⟩ ∨ n = .dir ⟨[], some .partly, []⟩

theorem mem_unlinkAll {d : DirSt σ} {fs : List String} {s : Node σ} (h : s ∈ unlinkAll d fs) :
    ∃ gs, s = .dir { d with parquet := gs } ∧ gs <:+ fs := by
  induction fs with
  | nil => simp [unlinkAll] at h
  | cons a fs ih =>
    simp only [unlinkAll, List.mem_cons] at h
    rcases h with rfl | h
    · exact ⟨fs, rfl, List.suffix_cons a fs⟩
    · obtain ⟨gs, h1, h2⟩ := ih h
      exact ⟨gs, h1, h2.trans (List.suffix_cons a fs)⟩

theorem mem_mkAndWrite {c : Cfg σ} (hv : c.Valid) {n s : Node σ} (h : s ∈ (mkAndWrite c n).1) :
    Recoverable s ∨ Stuck s := by
  unfold mkAndWrite at h
  split at h
  · simp at h
    rcases h with rfl | rfl | rfl
    · exact Or.inr (Or.inl rfl)
    · exact Or.inr (Or.inr rfl)
    · left; rw [recoverable_iff _ c]; right
      exact ⟨_, c, rfl, rfl, hv, rfl⟩
  · simp at h

/-- **C10 (partial).** Starting from nothing or from a complete cache, every crash point of `create`
leaves a state that can be recovered from, except the two windows in which the directory is empty
and its `.cfg` is absent or incomplete (after `mkdir`, or between removing `.cfg` and `rmdir`). -/
theorem C10_restart_partial (c : Cfg σ) (hv : c.Valid) (flag : Bool) (n : Node σ)
    (hn : Recoverable n) : ∀ s ∈ (create c flag n).1, Recoverable s ∨ Stuck s := by
  intro s hs
  rw [recoverable_iff n c] at hn
  rcases hn with rfl | ⟨d, c', rfl, h1, h2, h3⟩
  · have : (create c flag Node.missing).1 = (mkAndWrite c .missing).1 := by
      simp [create, Node.exists]
    rw [this] at hs
    exact mem_mkAndWrite hv hs
  · cases flag with
    | false =>
      simp [create, mkAndWrite] at hs
    | true =>
      have hl : load (.dir d) = .ok c' := load_dir_ok.2 ⟨h1, h2⟩
      simp only [create, Node.exists, Bool.and_self, if_true, delete_dir_ok hl h3] at hs
      simp only [List.mem_append, List.mem_cons, List.not_mem_nil, or_false] at hs
      rcases hs with (hs | rfl | rfl) | hs
      · obtain ⟨gs, rfl, _⟩ := mem_unlinkAll hs
        left; rw [recoverable_iff _ c]; right
        exact ⟨_, c', rfl, h1, h2, h3⟩
      · right; left
        rw [h3]
      · left; rw [recoverable_iff _ c]; exact Or.inl rfl
      · exact mem_mkAndWrite hv hs

/-- **C10 (no overwrite).** Without `delete_if_exists` an existing path is left untouched and the
call fails. -/
theorem C10_no_overwrite (c : Cfg σ) (n : Node σ) (h : n ≠ .missing) :
    create c false n = ([], .error .fileExists) := by
  cases n with
  | missing => exact absurd rfl h
  | file => rfl
  | dir d => rfl

/-- The premises of the partial theorem are met by a cache with data. -/
example : Recoverable (Node.dir ⟨["000000.parquet"], some (.full ⟨10, 10, "snappy", ()⟩), []⟩) :=
  (recoverable_iff _ ⟨10, 10, "snappy", ()⟩).2
    (Or.inr ⟨_, _, rfl, rfl, ⟨by decide, by decide, by decide⟩, rfl⟩)

/-! ## C11 -/

/-- **C11.** For every state of the path and at every point of the execution of `delete`: foreign
entries are untouched, the directory disappears only if there were none; and the call succeeds exactly
if nothing was there or a complete cache without foreign entries was, in which case nothing is left. -/
theorem C11_delete_exact (n : Node σ) :
    (∀ s ∈ (delete n).1, ∃ d, n = .dir d ∧
        ((s = .missing ∧ d.other = []) ∨
         ∃ d', s = .dir d' ∧ d'.other = d.other ∧ d'.parquet <:+ d.parquet)) ∧
    ((delete n).2 = .ok () ↔ n = .missing ∨ ∃ d c, n = .dir d ∧ load n = .ok c ∧ d.other = []) ∧
    ((delete n).2 = .ok () → final n (delete n).1 = .missing) ∧
    (∀ e, load n = .error e → n ≠ .missing → delete n = ([], .error e)) := by
  cases n with
  | missing => simp [delete, final]
  | file => simp [delete, load]
  | dir d =>
    cases hl : load (.dir d) with
    | error e => simp [delete, hl]
    | ok c =>
      by_cases ho : d.other = []
      · rw [delete_dir_ok hl ho]
        refine ⟨?_, ?_, ?_, ?_⟩
        · intro s hs
          refine ⟨d, rfl, ?_⟩
          simp only [List.mem_append, List.mem_cons, List.not_mem_nil, or_false] at hs
          rcases hs with hs | rfl | rfl
          · obtain ⟨gs, rfl, h2⟩ := mem_unlinkAll hs
            exact Or.inr ⟨_, rfl, rfl, h2⟩
          · exact Or.inr ⟨_, rfl, rfl, List.nil_suffix⟩
          · exact Or.inl ⟨rfl, ho⟩
        · simp [ho]
        · intro _
          have e : unlinkAll d d.parquet ++ [Node.dir { d with parquet := [], cfg := none }, .missing]
              = (unlinkAll d d.parquet ++ [Node.dir { d with parquet := [], cfg := none }])
                ++ [.missing] := by simp
          rw [e, final_append_single]
        · intro e he; simp at he
      · have hd : delete (.dir d) = (unlinkAll d d.parquet ++
            [.dir { d with parquet := [], cfg := none }], .error .osError) := by
          simp [delete, hl, ho]
        rw [hd]
        refine ⟨?_, ?_, ?_, ?_⟩
        · intro s hs
          refine ⟨d, rfl, Or.inr ?_⟩
          simp only [List.mem_append, List.mem_cons, List.not_mem_nil, or_false] at hs
          rcases hs with hs | rfl
          · obtain ⟨gs, rfl, h2⟩ := mem_unlinkAll hs
            exact ⟨_, rfl, rfl, h2⟩
          · exact ⟨_, rfl, rfl, List.nil_suffix⟩
        · simp [ho]
        · intro h; simp at h
        · intro e he; simp at he

/-- A foreign file makes `delete` fail after the data is already gone. -/
example : delete (Node.dir ⟨["000000.parquet"], some (.full ⟨1, 1, "x", ()⟩), ["notes.txt"]⟩)
    = ([.dir ⟨[], some (.full ⟨1, 1, "x", ()⟩), ["notes.txt"]⟩,
        .dir ⟨[], none, ["notes.txt"]⟩], .error .osError) := by
  simp [delete, load, unlinkAll]

end Verif.Cache.Life
