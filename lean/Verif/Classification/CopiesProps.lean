import Verif.Classification.OrderProps

/-! # C105: repeating a dataset does not change the ROC areas -/

namespace Verif.Classification

theorem sum_copies (l : List Rat) : ∀ n : Nat, ((List.replicate n l).flatten).sum = (n : Rat) * l.sum
  | 0 => by simp
  | n + 1 => by
    rw [List.replicate_succ, List.flatten_cons, List.sum_append, sum_copies l n]
    push_cast
    ring

theorem length_copies {α : Type} (l : List α) (n : Nat) : ((List.replicate n l).flatten).length = n * l.length := by
  simp

theorem map_copies {α β : Type} (f : α → β) (l : List α) (n : Nat) :
    ((List.replicate n l).flatten).map f = (List.replicate n (l.map f)).flatten := by
  rw [List.map_flatten, List.map_replicate]

/-- The statistic does not change if every score occurs `n` times. -/
theorem mannWhitney_copies {n : Nat} (hn : 0 < n) (P N : List Rat) :
    mannWhitney (List.replicate n P).flatten (List.replicate n N).flatten = mannWhitney P N := by
  unfold mannWhitney
  have hq : (n : Rat) ≠ 0 := by exact_mod_cast hn.ne'
  have h1 : ∀ m : Rat, (((List.replicate n P).flatten).map (fun p => if m < p then 1 else if p = m then (1 / 2 : Rat) else 0)).sum
      = (n : Rat) * (P.map (fun p => if m < p then 1 else if p = m then (1 / 2 : Rat) else 0)).sum := by
    intro m
    rw [map_copies, sum_copies]
  simp only [h1]
  have h2 : ∀ (f : Rat → Rat) (M : List Rat), (M.map (fun m => (n : Rat) * f m)).sum = (n : Rat) * (M.map f).sum := by
    intro f M
    induction M with
    | nil => simp
    | cons m M ih =>
      rw [List.map_cons, List.sum_cons, ih, List.map_cons, List.sum_cons]
      ring
  rw [map_copies, sum_copies, h2, length_copies, length_copies]
  push_cast
  rw [← mul_assoc, show (n : Rat) * P.length * (n * N.length) = (n * n) * (P.length * N.length) by ring,
    mul_div_mul_left _ _ (mul_ne_zero hq hq)]

theorem positives_copies (cs : List Classif) (l : String) (n : Nat) :
    positives (List.replicate n cs).flatten l = (List.replicate n (positives cs l)).flatten := by
  unfold positives
  rw [List.filter_flatten, List.map_replicate, List.filterMap_flatten, List.map_replicate]

theorem negatives_copies (cs : List Classif) (l : String) (n : Nat) :
    negatives (List.replicate n cs).flatten l = (List.replicate n (negatives cs l)).flatten := by
  unfold negatives
  rw [List.filter_flatten, List.map_replicate, List.filterMap_flatten, List.map_replicate]

/-- **C105 (ROC area), partial.** A dataset in which every classification is repeated `n` times, added in any order and stored in any way,
has the ROC areas of the dataset, under the conditions of `C21_rocauc_partial` for the label (top score not 0, scored wherever it is the
ground truth, no cut right after its first row). Missing: the rest, where the area is not the statistic. -/
theorem C105_rocauc_partial {calls calls' : List (List Classif)} {n : Nat} (hn : 0 < n)
    (hp : (history calls').Perm (List.replicate n (history calls)).flatten)
    (hv : ∀ c ∈ calls.flatten, c.valid = true) (hv' : ∀ c ∈ calls'.flatten, c.valid = true)
    (hnd : ∀ c ∈ history calls, c.preds.Nodup) {l : String} (hl : ∀ c ∈ history calls, c.gt = l → l ∈ c.preds)
    {top : Rat} (htop : top ∈ positives (history calls) l ++ negatives (history calls) l) (htop0 : top ≠ 0)
    (hmax : ∀ s ∈ positives (history calls) l ++ negatives (history calls) l, s ≤ top)
    {frags frags' : List (List Row)} (hf : FragmentsOf frags (Loader.init.addAll calls).rows.flatten)
    (hf' : FragmentsOf frags' (Loader.init.addAll calls').rows.flatten) {tables tables' : List (List IRow)}
    (hperm : tables.flatten.Perm ((Loader.init.addAll calls).rows.flatten.map irow))
    (hperm' : tables'.flatten.Perm ((Loader.init.addAll calls').rows.flatten.map irow))
    (hsort : tables.flatten.Pairwise (fun a b => b.score ≤ a.score)) (hsort' : tables'.flatten.Pairwise (fun a b => b.score ≤ a.score))
    {chunks chunks' : List (List RocRow)}
    (hchunks : chunks.flatten = rocCurve (List.range (Loader.init.addAll calls).labels.length) (Loader.init.addAll calls).labels.length tables)
    (hchunks' : chunks'.flatten
      = rocCurve (List.range (Loader.init.addAll calls').labels.length) (Loader.init.addAll calls').labels.length tables')
    (hcut : NoCut ((Loader.init.addAll calls).labels.idxOf l) chunks) (hcut' : NoCut ((Loader.init.addAll calls').labels.idxOf l) chunks') :
    rocauc frags' chunks' ((Loader.init.addAll calls').labels.idxOf l) = rocauc frags chunks ((Loader.init.addAll calls).labels.idxOf l) := by
  have hP : (positives (history calls') l).Perm (List.replicate n (positives (history calls) l)).flatten := by
    rw [← positives_copies]
    exact (hp.filter _).filterMap _
  have hN : (negatives (history calls') l).Perm (List.replicate n (negatives (history calls) l)).flatten := by
    rw [← negatives_copies]
    exact (hp.filter _).filterMap _
  have hmem : ∀ {α : Type} (l : List α) (x : α), x ∈ (List.replicate n l).flatten ↔ x ∈ l := by
    intro α l x
    rw [List.mem_flatten]
    constructor
    · rintro ⟨y, hy, hx⟩
      rwa [(List.mem_replicate.1 hy).2] at hx
    · intro hx
      exact ⟨l, List.mem_replicate.2 ⟨hn.ne', rfl⟩, hx⟩
  have hA : ∀ s, s ∈ positives (history calls') l ++ negatives (history calls') l ↔ s ∈ positives (history calls) l ++ negatives (history calls) l := by
    intro s
    rw [List.mem_append, List.mem_append, hP.mem_iff, hN.mem_iff, hmem, hmem]
  have hH : ∀ c, c ∈ history calls' ↔ c ∈ history calls := by
    intro c
    rw [hp.mem_iff, hmem]
  rw [C21_rocauc_partial calls hv hnd hl htop htop0 hmax hf hperm hsort hchunks hcut,
    C21_rocauc_partial calls' hv' (fun c hc => hnd c ((hH c).1 hc)) (fun c hc => hl c ((hH c).1 hc)) ((hA top).2 htop) htop0
      (fun s hs => hmax s ((hA s).1 hs)) hf' hperm' hsort' hchunks' hcut', mannWhitney_perm hP hN, mannWhitney_copies hn]

/-- **C105 fails for ROC areas when the curve is cut right after the first row of a label** (see C22): two datums with tied scores and one row of
the curve per table have area 0; the same datums twice and uncut have area 1/2. -/
theorem C105_rocauc_violation :
    history (tied (1 / 2) ++ tied (1 / 2)) = (List.replicate 2 (history (tied (1 / 2)))).flatten ∧
    pipeline (tied (1 / 2)) (fun r => r.map (fun x => [x])) "a" = 0 ∧ pipeline (tied (1 / 2) ++ tied (1 / 2)) (fun r => [r]) "a" = 1 / 2 := by
  decide +kernel

/-- The hypotheses hold for `sample` twice, in another order, and the label `dog`, which has another id there. -/
example : (history [(sample ++ sample).flatten.reverse]).Perm (List.replicate 2 (history sample)).flatten ∧
    (∀ c ∈ sample.flatten, c.valid = true) ∧ (∀ c ∈ [(sample ++ sample).flatten.reverse].flatten, c.valid = true) ∧
    (∀ c ∈ history sample, c.preds.Nodup) ∧ (∀ c ∈ history sample, c.gt = "dog" → "dog" ∈ c.preds) ∧
    positives (history sample) "dog" ++ negatives (history sample) "dog" = [1 / 10, 0, 1 / 2] ∧
    (Loader.init.addAll sample).labels.idxOf "dog" ≠ (Loader.init.addAll [(sample ++ sample).flatten.reverse]).labels.idxOf "dog" := by
  refine ⟨?_, by decide +kernel, by decide +kernel, by decide +kernel, by decide +kernel, by decide +kernel, by decide +kernel⟩
  have : history [(sample ++ sample).flatten.reverse] = ((List.replicate 2 (history sample)).flatten).reverse := by decide +kernel
  rw [this]
  exact List.reverse_perm _

end Verif.Classification
