import Verif.Shared.Interrupted
import Verif.Shared.MetadataProps

/-! # C88: what an interrupted creation leaves behind is not loaded -/

namespace Verif.Metadata

open Verif.Cache

theorem endOf_append (r : Root τ) (a b : List (Root τ)) : endOf r (a ++ b) = endOf (endOf r a) b := by
  unfold endOf
  cases b with
  | nil => simp
  | cons x b => simp [List.getLast_cons]

/-- The steps lead to the outcome of the call. -/
theorem create_agrees (o : Opts) (name : String) (s : Except SchemaErr (Schema τ)) (r : Root τ) :
    schemaThenCreate o name s r = (endOf r (createRun o name s r).1, (createRun o name s r).2) := by
  unfold schemaThenCreate createRun
  cases s with
  | error e => rfl
  | ok s =>
    unfold createCache
    cases r with
    | file => rfl
    | missing => rfl
    | dir c m =>
      dsimp only [Root.caches]
      cases hc : c name with
      | missing => simp [Life.create, Life.mkAndWrite, Life.final, endOf, parentSteps]
      | file => rfl
      | dir d => rfl

theorem next_agrees {r : Root τ} {x : Root τ × Except Err Unit} {y : Run τ} (hx : x = (endOf r y.1, y.2))
    {f : Root τ → Root τ × Except Err Unit} {g : Root τ → Run τ} (hf : ∀ r, f r = (endOf r (g r).1, (g r).2)) :
    andThen x f = (endOf r (Run.next r y g).1, (Run.next r y g).2) := by
  subst hx
  obtain ⟨tr, e⟩ := y
  cases e with
  | error e => rfl
  | ok u =>
    cases u
    show f (endOf r tr) = (endOf r (tr ++ (g (endOf r tr)).1), (g (endOf r tr)).2)
    rw [hf, endOf_append]

/-- **C88 (steps).** Each call ends in the state and with the outcome of C49. -/
theorem C88_steps (A : Arrow τ) (B : Builtin τ) (o : Opts) (m : Fields τ) (r : Root τ) :
    detPersistent A B o m r = (endOf r (detRun A B o m r).1, (detRun A B o m r).2) ∧
    clsPersistent A B o m r = (endOf r (clsRun A B o m r).1, (clsRun A B o m r).2) ∧
    segPersistent A B o m r = (endOf r (segRun A B o m r).1, (segRun A B o m r).2) := by
  have hm : ∀ r, writeMeta A m r = (endOf r (metaRun A m r).1, (metaRun A m r).2) := fun _ => rfl
  refine ⟨?_, ?_, ?_⟩
  · exact next_agrees (create_agrees ..) fun r => next_agrees (create_agrees ..) hm
  · exact next_agrees (create_agrees ..) fun r => next_agrees (create_agrees ..) fun r => next_agrees (create_agrees ..) hm
  · exact next_agrees (create_agrees ..) hm

/-- Creating a cache leaves the metadata file alone. -/
theorem create_meta (o : Opts) (name : String) (s : Except SchemaErr (Schema τ)) (r : Root τ) :
    ∀ x ∈ (createRun o name s r).1, x.metaFile = r.metaFile := by
  intro x hx
  unfold createRun at hx
  cases s with
  | error e => simp at hx
  | ok s =>
    cases r with
    | file => simp at hx
    | missing =>
      simp [Life.create, Life.mkAndWrite, parentSteps, Root.caches, Root.setCache] at hx
      rcases hx with rfl | rfl | rfl | rfl <;> rfl
    | dir c m =>
      dsimp only [Root.caches] at hx
      cases hc : c name with
      | missing =>
        rw [hc] at hx
        simp [Life.create, Life.mkAndWrite, parentSteps, Root.setCache] at hx
        rcases hx with rfl | rfl | rfl <;> rfl
      | file => rw [hc] at hx; simp [Life.create, Life.mkAndWrite] at hx
      | dir d => rw [hc] at hx; simp [Life.create, Life.mkAndWrite] at hx

theorem endOf_meta {r : Root τ} {tr : List (Root τ)} {v : Option MetaFile} (hr : r.metaFile = v) (h : ∀ x ∈ tr, x.metaFile = v) :
    (endOf r tr).metaFile = v := by
  have : endOf r tr ∈ r :: tr := List.getLast_mem _
  rcases List.mem_cons.1 this with h1 | h1
  · rw [h1]; exact hr
  · exact h _ h1

theorem load_needs_meta {names : List String} {r : Root τ} {v} (h : loadEvaluator names r = .ok v) :
    ∃ d, r.metaFile = some (.full d) := by
  unfold loadEvaluator at h
  cases r with
  | missing => simp at h
  | file => simp at h
  | dir c m =>
    dsimp only at h
    cases hl : loadCaches (.dir c m) names with
    | error e => rw [hl] at h; simp at h
    | ok ss =>
      rw [hl] at h
      dsimp only [Root.metaFile] at h ⊢
      match m, h with
      | some (.full d), _ => exact ⟨d, rfl⟩

/-- All states but the last of a successful run have no complete metadata file. -/
def Late (run : Run τ) : Prop :=
  ∀ x ∈ run.1, ∀ d, x.metaFile = some (.full d) → run.2 = .ok () ∧ run.1.getLast? = some x

theorem late_meta (A : Arrow τ) (m : Fields τ) (r : Root τ) : Late (metaRun A m r) := by
  intro x hx d hd
  simp only [metaRun, List.mem_cons, List.not_mem_nil, or_false] at hx
  rcases hx with rfl | rfl
  · simp [Root.metaFile] at hd
  · exact ⟨rfl, rfl⟩

theorem late_next {o : Opts} {name : String} {s : Except SchemaErr (Schema τ)} {r : Root τ} (hr : r.metaFile = none)
    {f : Root τ → Run τ} (hf : ∀ r, r.metaFile = none → Late (f r)) : Late (Run.next r (createRun o name s r) f) := by
  have hm := create_meta o name s r
  rw [hr] at hm
  have he := endOf_meta hr hm
  generalize createRun o name s r = run at *
  obtain ⟨tr, e⟩ := run
  cases e with
  | error e =>
    intro x hx d hd
    rw [hm x hx] at hd
    cases hd
  | ok u =>
    cases u
    intro x hx d hd
    change x ∈ tr ++ (f (endOf r tr)).1 at hx
    show (f (endOf r tr)).2 = .ok () ∧ (tr ++ (f (endOf r tr)).1).getLast? = some x
    rcases List.mem_append.1 hx with hx | hx
    · rw [hm x hx] at hd
      cases hd
    · obtain ⟨h1, h2⟩ := hf _ he x hx d hd
      refine ⟨h1, ?_⟩
      rw [List.getLast?_append, h2]
      rfl

/-- **C88 (creation).** At a path without a `metadata.json`, for any declaration, any configuration and whatever caches are there:
if the state before the call or after any number of its file system steps can be loaded, then the call has
succeeded and that state is its last one. -/
theorem C88_creation (A : Arrow τ) (B : Builtin τ) (o : Opts) (m : Fields τ) (r : Root τ) (hr : r.metaFile = none) :
    (∀ x ∈ r :: (detRun A B o m r).1, ∀ v, loadEvaluator detNames x = .ok v →
      (detRun A B o m r).2 = .ok () ∧ (detRun A B o m r).1.getLast? = some x) ∧
    (∀ x ∈ r :: (clsRun A B o m r).1, ∀ v, loadEvaluator clsNames x = .ok v →
      (clsRun A B o m r).2 = .ok () ∧ (clsRun A B o m r).1.getLast? = some x) ∧
    (∀ x ∈ r :: (segRun A B o m r).1, ∀ v, loadEvaluator segNames x = .ok v →
      (segRun A B o m r).2 = .ok () ∧ (segRun A B o m r).1.getLast? = some x) := by
  have h1 : Late (detRun A B o m r) := late_next hr fun r hr => late_next hr fun r _ => late_meta A m r
  have h2 : Late (clsRun A B o m r) :=
    late_next hr fun r hr => late_next hr fun r hr => late_next hr fun r _ => late_meta A m r
  have h3 : Late (segRun A B o m r) := late_next hr fun r _ => late_meta A m r
  have key : ∀ (names : List String) (run : Run τ), Late run → ∀ x ∈ r :: run.1, ∀ v, loadEvaluator names x = .ok v →
      run.2 = .ok () ∧ run.1.getLast? = some x := by
    intro names run hl x hx v hv
    obtain ⟨d, hd⟩ := load_needs_meta hv
    rcases List.mem_cons.1 hx with rfl | hx
    · rw [hr] at hd
      cases hd
    · exact hl x hx d hd
  exact ⟨key _ _ h1, key _ _ h2, key _ _ h3⟩

/-- **C88 (first step).** Where nothing exists, the first thing that a creation makes is the empty directory: an interruption right after it leaves no
cache and no metadata behind. -/
theorem C88_first_step (A : Arrow τ) (B : Builtin τ) (o : Opts) (m : Fields τ) :
    (∀ x, (detRun A B o m .missing).1.head? = some x → x = .dir (fun _ => .missing) none) ∧
    (∀ x, (clsRun A B o m .missing).1.head? = some x → x = .dir (fun _ => .missing) none) ∧
    (∀ x, (segRun A B o m .missing).1.head? = some x → x = .dir (fun _ => .missing) none) := by
  have one : ∀ (name : String) (s : Except SchemaErr (Schema τ)) (f : Root τ → Run τ),
      ∀ x, (Run.next .missing (createRun o name s .missing) f).1.head? = some x → x = .dir (fun _ => .missing) none := by
    intro name s f x hx
    cases s with
    | error e => simp [createRun, Run.next] at hx
    | ok s =>
      simp [createRun, Run.next, parentSteps, Life.create, Life.mkAndWrite, Root.caches] at hx
      exact hx.symm
  exact ⟨one _ _ _, one _ _ _, one _ _ _⟩

/-- The full claim: nothing but the last state of a creation is loaded, whatever is at the path before. -/
def OnlyLastLoads (τ : Type) : Prop :=
  ∀ (A : Arrow τ) (B : Builtin τ) (o : Opts) (m : Fields τ) (r : Root τ), (∀ v, loadEvaluator detNames r ≠ .ok v) →
    ∀ x ∈ (detRun A B o m r).1, ∀ v, loadEvaluator detNames x = .ok v → (detRun A B o m r).1.getLast? = some x

/-- **C88, violated for a path that still has a `metadata.json`** (deleting the caches leaves it): a creation that stops before
it is written anew is loaded, with the metadata fields of the old evaluator. -/
theorem C88_leftover_violation : ¬ OnlyLastLoads Unit := by
  intro h
  let r : Root Unit := .dir (fun _ => .missing) (some (.full [("old", "t")]))
  let run := detRun ⟨fun _ => "t", fun _ => none⟩ ⟨(), (), (), (), ()⟩ ⟨1, 1, "snappy"⟩ none r
  let x := (run.1[5]?).getD r
  have hx : run.1[5]? = some x := rfl
  have hload : (loadEvaluator detNames x).map Prod.snd = .ok (some [("old", .name "t")]) := rfl
  have hmeta : x.metaFile = some (.full [("old", "t")]) := rfl
  have hlast : run.1.getLast?.map Root.metaFile = some (some (.full [])) := rfl
  have h0 : ∀ v, loadEvaluator detNames r ≠ .ok v := by
    intro v
    simp [r, loadEvaluator, loadCaches, detNames, Root.caches, Life.load]
  cases hv : loadEvaluator detNames x with
  | error e => rw [hv] at hload; cases hload
  | ok v =>
    have := h _ _ _ _ r h0 x (List.mem_of_getElem? hx) v hv
    change run.1.getLast? = some x at this
    rw [this, Option.map_some, hmeta] at hlast
    simp at hlast

/-- A path that does not exist, and the nine steps of a creation there: the last state is loaded. -/
example : (Root.missing : Root Nat).metaFile = none ∧
    ((detRun sampleArrow sampleBuiltin ⟨10, 10, "snappy"⟩ sampleFields .missing).1.map
      (fun x => (loadEvaluator detNames x).toOption.isSome)) = [false, false, false, false, false, false, false, false, true] :=
  ⟨rfl, by decide +kernel⟩

/-- Classification and segmentation. -/
example : ((clsRun sampleArrow sampleBuiltin ⟨10, 10, "snappy"⟩ sampleFields .missing).1.map
      (fun x => (loadEvaluator clsNames x).toOption.isSome)) = List.replicate 11 false ++ [true] ∧
    ((segRun sampleArrow sampleBuiltin ⟨10, 10, "snappy"⟩ sampleFields .missing).1.map
      (fun x => (loadEvaluator segNames x).toOption.isSome)) = List.replicate 5 false ++ [true] :=
  ⟨by decide +kernel, by decide +kernel⟩

end Verif.Metadata
