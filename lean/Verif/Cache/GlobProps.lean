import Verif.Cache.GlobPath
import Verif.Cache.WriterProps

/-!
# C51: whose data a cache touches
-/

namespace Verif.Cache.Glob

open Verif.Cache

/-! ## Specification -/

/-- Deleting the dataset of `p` empties `p` and leaves every other directory as it was. -/
def DeletesOnlyOwn (p : String) : Prop :=
  ∀ fs : Parent, unlinkDataset p fs = fs.map (fun d => if d.1 = p then (d.1, []) else d)

/-- Whatever has been written and flushed is read back. -/
def KeepsRows (p : String) : Prop :=
  ∀ (fs : Parent) (batchSize rowsPerFile : Nat) (ops : List (WOp Nat)),
    (FileW.orderedTables
      ((writerAt p fs batchSize rowsPerFile).run (ops ++ [.flush])).closed).flatten = written ops

/-- A directory name without `*`, `?` and `[`. -/
def Plain (p : String) : Prop := ∀ c ∈ p.toList, c ≠ '*' ∧ c ≠ '?' ∧ c ≠ '['

/-! ## Theorems -/

theorem visits_plain {p : String} (h : Plain p) (d : String) : visits p d = decide (p = d) := by
  have : magic p.toList = false := by
    rw [magic, List.any_eq_false]
    intro c hc
    have := h c hc
    simp [this.1, this.2.1, this.2.2]
  rw [visits, this]
  by_cases e : p = d <;> simp [e]

/-- **C51 (hidden directories).** A cache whose directory name does not start with a dot neither reads nor deletes
files of a directory whose name does, whatever pattern its own name is. -/
theorem C51_hidden (p : String) (hp : p.toList.head? ≠ some '.') (fs : Parent) (d : String) (hd : d.toList.head? = some '.') :
    (∀ n, (d, n) ∉ datasetFiles p fs) ∧ (∀ ns, (d, ns) ∈ fs → (d, ns) ∈ unlinkDataset p fs) := by
  have hv : visits p d = false := by
    unfold visits
    have e1 : hidden p.toList = false := by unfold hidden; simpa using hp
    have e2 : hidden d.toList = true := by unfold hidden; simp [hd]
    split
    · simp [e1, e2]
    · rw [beq_eq_false_iff_ne]
      rintro rfl
      exact hp hd
  have hn : ∀ n, (d, n) ∉ datasetFiles p fs := by
    intro n hm
    unfold datasetFiles at hm
    obtain ⟨x, hx, hm⟩ := List.mem_flatMap.1 hm
    obtain ⟨m, _, e⟩ := List.mem_map.1 hm
    have : x.1 = d := (Prod.mk.inj e).1
    have h2 := (List.mem_filter.1 hx).2
    rw [this, hv] at h2
    exact absurd h2 (by simp)
  refine ⟨hn, fun ns hm => List.mem_map.2 ⟨(d, ns), hm, ?_⟩⟩
  have : ns.filter (fun n => !(datasetFiles p fs).contains (d, n)) = ns := by
    rw [List.filter_eq_self]
    intro n _
    simpa [List.contains_iff_mem] using hn n
  simp only [this]

/-- The pattern `*` visits every other directory, but not `.git`; `.*` does. -/
example : "*".toList.head? ≠ some '.' ∧ ".git".toList.head? = some '.' ∧ visits "*" "run" = true ∧ visits ".*" ".git" = true := by decide

/-- **C51 (partial).** With a directory name without glob metacharacters, a cache keeps all rows
flushed into it and deletion touches its own files only. Missing: every other name. -/
theorem C51_own_data_partial (p : String) (h : Plain p) : DeletesOnlyOwn p ∧ KeepsRows p := by
  constructor
  · intro fs
    unfold unlinkDataset
    apply List.map_congr_left
    intro d hd
    by_cases e : d.1 = p
    · simp only [e, if_true]
      congr 1
      rw [List.filter_eq_nil_iff]
      intro n hn
      simp only [datasetFiles, Bool.not_eq_true', Bool.not_eq_false, List.contains_iff_mem,
        List.mem_flatMap, List.mem_filter, List.mem_map]
      exact ⟨d, ⟨hd, by simp [visits_plain h, e]⟩, n, hn, by simp [e]⟩
    · rw [if_neg e]
      have : d.2.filter (fun n => !(datasetFiles p fs).contains (d.1, n)) = d.2 := by
        rw [List.filter_eq_self]
        intro n _
        simp only [datasetFiles, Bool.not_eq_true', List.contains_eq_mem, decide_eq_false_iff_not,
          List.mem_flatMap, List.mem_filter, List.mem_map, not_exists, not_and]
        intro d' hd' n' _ he
        rw [visits_plain h] at hd'
        have h2 : p = d'.1 := by simpa using hd'.2
        have h1 : d'.1 = d.1 := (Prod.mk.inj he).1
        exact e (h1 ▸ h2.symm)
      rw [this]
  · intro fs b r ops
    have hv : visits p p = true := by simp [visits_plain h]
    have := (C01_file_roundtrip b r ((datasetFiles p fs).map Prod.snd) ops)
    dsimp only at this
    rw [writerAt, hv]
    exact this.2.2 _ (List.Perm.refl _)

/-- When the pattern does not match the cache's own directory, at most one complete file is left at
any time: each new file replaces the previous one. -/
theorem blind_one_file {α : Type} (b r : Nat) (ext : List Nat) (ops : List (WOp α)) :
    ((FileW.create b r false ext).run ops).closed.length ≤ 1 := by
  -- invariant: every file has the same index
  let nm := (FileW.create b r false ext : FileW α).nextName
  let I : FileW α → Prop := fun s => s.sees = false ∧ s.ext = ext ∧ (∀ f ∈ s.closed, f.1 = nm) ∧
    s.closed.length ≤ 1 ∧ (∀ f ∈ s.opened, f.1 = nm ∧ s.closed = [])
  have hnext : ∀ s, I s → s.nextName = nm := by
    rintro s ⟨h1, h2, -⟩
    simp [nm, FileW.nextName, FileW.seenNames, h1, h2, FileW.create]
  have hwo : ∀ s, I s → FileW.without s.closed s.nextName = [] := by
    intro s hs
    rw [hnext s hs, FileW.without, List.filter_eq_nil_iff]
    intro f hf
    simp [hs.2.2.1 f hf]
  have hemit : ∀ s x, I s → I (s.emit x) := by
    intro s x hs
    have h1 := hwo s hs
    have h2 := hnext s hs
    obtain ⟨a1, a2, a3, a4, a5⟩ := hs
    unfold FileW.emit
    cases ho : s.opened with
    | none => exact ⟨a1, a2, by simp [h1], by simp [h1], by simp [← h2, h1]⟩
    | some f => 
      obtain ⟨n, c⟩ := f
      refine ⟨a1, a2, a3, a4, ?_⟩
      simpa [ho] using a5
  have hclose : ∀ s, I s → I s.closeWriter := by
    rintro s ⟨a1, a2, a3, a4, a5⟩
    unfold FileW.closeWriter
    cases ho : s.opened with
    | none => exact ⟨a1, a2, a3, a4, by simp [ho]⟩
    | some f =>
      have := a5 f (by simp [ho])
      exact ⟨a1, a2, by simp [this], by simp [this], by simp⟩
  have hcongr : ∀ s s', I s → s'.sees = s.sees → s'.ext = s.ext → s'.closed = s.closed →
      s'.opened = s.opened → I s' := by
    rintro s s' ⟨a1, a2, a3, a4, a5⟩ e1 e2 e3 e4
    exact ⟨e1 ▸ a1, e2 ▸ a2, e3 ▸ a3, e3 ▸ a4, by rw [e4, e3]; exact a5⟩
  have hflush : ∀ s, I s → I s.flush := by
    intro s hs
    unfold FileW.flush
    apply hclose
    by_cases hb : s.buffer.isEmpty = true
    · simp only [hb, if_true]; exact hcongr s _ hs rfl rfl rfl rfl
    · simp only [hb]; exact hcongr _ _ (hemit s _ hs) rfl rfl rfl rfl
  have hbatch : ∀ s x, I s → I (s.writeBatch x) := by
    intro s x hs
    unfold FileW.writeBatch
    dsimp only
    split
    · exact hcongr s _ hs rfl rfl rfl rfl
    · generalize (if s.buffer.isEmpty = true then x else (s.buffer ++ [x]).flatten) = m
      have : I (({ s with buffer := [] } : FileW α).emit m) :=
        hemit _ _ (hcongr s _ hs rfl rfl rfl rfl)
      split
      · exact hflush _ (hcongr _ _ this rfl rfl rfl rfl)
      · exact hcongr _ _ this rfl rfl rfl rfl
  have htable : ∀ s x, I s → I (s.writeTable x) := by
    intro s x hs
    have hf := hflush s hs
    have h1 := hwo _ hf
    have h2 := hnext _ hf
    have h3 : s.flush.opened = none := FileW.flush_opened s
    obtain ⟨a1, a2, a3, a4, a5⟩ := hf
    exact ⟨a1, a2, by simp [FileW.writeTable, h1]; simp [h2], by simp [FileW.writeTable, h1],
      by simp [FileW.writeTable, h3]⟩
  have hstep : ∀ s op, I s → I (s.step op) := by
    intro s op hs
    cases op with
    | rows l =>
      simp only [FileW.step, FileW.writeRows]; split
      · exact hs
      · exact hbatch s l hs
    | columns c => cases c with
      | none => exact hs
      | some c => exact hbatch s c hs
    | batch x => exact hbatch s x hs
    | table t => exact htable s t hs
    | flush => exact hflush s hs
  have hrun : ∀ ops s, I s → I (s.run ops) := by
    intro ops
    induction ops with
    | nil => intro s hs; exact hs
    | cons a l ih => intro s hs; exact ih _ (hstep s a hs)
  have h0 : I (FileW.create b r false ext) :=
    ⟨rfl, rfl, by simp [FileW.create], by simp [FileW.create], by simp [FileW.create]⟩
  exact (hrun ops _ h0).2.2.2.1

/-- **C51, violated.** The directory name `run[1]` is a pattern that does not match itself: rows
flushed earlier are overwritten. And deleting the cache in `exp[12]` unlinks the files of the
caches in `exp1` and `exp2`. -/
theorem C51_violation : ¬ KeepsRows "run[1]" ∧ ¬ DeletesOnlyOwn "exp[12]" := by
  constructor
  · intro h
    have h1 := h [] 1 1 [.rows [1], .rows [2]]
    have hv : visits "run[1]" "run[1]" = false := by decide
    have h2 := blind_one_file (α := Nat) 1 1 [] ([.rows [1], .rows [2]] ++ [.flush])
    have hc : ((FileW.create 1 1 false [] : FileW Nat).run
      ([.rows [1], .rows [2]] ++ [.flush])).closed = [(0, [2])] := by decide
    rw [writerAt, hv] at h1
    simp only [datasetFiles, List.filter_nil, List.flatMap_nil, List.map_nil] at h1
    rw [hc] at h1
    simp [FileW.orderedTables, written, WOp.payload] at h1
  · intro h
    have h1 := h [("exp1", [0, 1]), ("exp2", [0]), ("exp3", [0])]
    revert h1; decide

/-! ## Non-vacuity -/

example : Plain "run-1" := by unfold Plain; decide
example : visits "run[1]" "run1" = true := by decide
example : visits "a*c" "abbc" = true := by decide
example : visits "x[!a-c]" "xb" = false ∧ visits "x[!a-c]" "xd" = true := by decide
/-- An unclosed bracket stands for itself. -/
example : visits "run[1" "run[1" = true := by decide

end Verif.Cache.Glob
