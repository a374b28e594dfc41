import Verif.Classification.PerfectProps
import Verif.Classification.RocUntiedProps

/-! # C82: the ROC area of a perfect ranking, however the curve is stored -/

namespace Verif.Classification

theorem largest_mem : ∀ {P : List Rat}, P ≠ [] → ∃ m ∈ P, ∀ x ∈ P, x ≤ m := by
  intro P
  induction P with
  | nil => intro h; exact absurd rfl h
  | cons p P ih =>
    intro _
    by_cases hP : P = []
    · exact ⟨p, by simp, by simp [hP]⟩
    · obtain ⟨m, hm, h⟩ := ih hP
      rcases le_total p m with hle | hle
      · exact ⟨m, List.mem_cons_of_mem _ hm, fun x hx => (List.mem_cons.1 hx).elim (fun e => e ▸ hle) (h x)⟩
      · exact ⟨p, List.mem_cons_self, fun x hx => (List.mem_cons.1 hx).elim (fun e => e ▸ le_refl _) (fun hx => (h x hx).trans hle)⟩

/-- **C82 (ROC area, every division).** If every datum of a label scores the label, and scores it higher than every other datum does, with scores that
are not negative, then the ROC area of the label is 1, for every division of cache, intermediate and curve into tables. -/
theorem C82_rocauc (calls : List (List Classif)) (hv : ∀ c ∈ calls.flatten, c.valid = true)
    (hnd : ∀ c ∈ history calls, c.preds.Nodup) {l : String} (hl : ∀ c ∈ history calls, c.gt = l → l ∈ c.preds)
    (hP : positives (history calls) l ≠ []) (hN : negatives (history calls) l ≠ [])
    (habove : ∀ p ∈ positives (history calls) l, ∀ n ∈ negatives (history calls) l, 0 ≤ n ∧ n < p)
    {frags : List (List Row)} (hf : FragmentsOf frags (Loader.init.addAll calls).rows.flatten)
    {tables : List (List IRow)} (hperm : tables.flatten.Perm ((Loader.init.addAll calls).rows.flatten.map irow))
    (hsort : tables.flatten.Pairwise (fun a b => b.score ≤ a.score)) {chunks : List (List RocRow)}
    (hchunks : chunks.flatten = rocCurve (List.range (Loader.init.addAll calls).labels.length) (Loader.init.addAll calls).labels.length tables) :
    rocauc frags chunks ((Loader.init.addAll calls).labels.idxOf l) = 1 := by
  obtain ⟨top, htop, hmax⟩ := largest_mem hP
  obtain ⟨n, hn⟩ := List.exists_mem_of_ne_nil _ hN
  have h0 : 0 < top := lt_of_le_of_lt (habove top htop n hn).1 (habove top htop n hn).2
  rw [C21_untied calls hv hnd hl (List.mem_append_left _ htop) h0.ne' (fun s hs => (List.mem_append.1 hs).elim (hmax s)
    (fun h => (habove top htop s h).2.le)) (Or.inr (fun h => lt_irrefl _ (habove top htop top h).2)) hf hperm hsort hchunks]
  exact mannWhitney_one hP hN (fun p hp n hn => (habove p hp n hn).2)

example : (∀ c ∈ perfectClassifs.flatten, c.valid = true) ∧ (∀ c ∈ history perfectClassifs, c.preds.Nodup) ∧
    (∀ c ∈ history perfectClassifs, c.gt = "cat" → "cat" ∈ c.preds) ∧
    positives (history perfectClassifs) "cat" = [9/10, 8/10] ∧ negatives (history perfectClassifs) "cat" = [1/4] := by
  decide +kernel

end Verif.Classification
