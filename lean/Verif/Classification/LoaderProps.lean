import Verif.Classification.LoaderLemmas
import Mathlib.Data.List.TakeWhile

/-! # C12: what the classification loader stores -/

namespace Verif.Classification

/-- The classifications that a history of `add_data` calls adds: in each call those before the first
one without predictions (that one raises). -/
def history (calls : List (List Classif)) : List Classif := calls.flatMap accepted

theorem rows_reach (calls : List (List Classif)) :
    let s := Loader.init.addAll calls
    s.rows = (history calls).zipIdx.map (fun x => rowsOf s.labels x.2 x.1) :=
  (linv_reach calls).rows _ List.prefix_rfl (linv_reach calls).nodup

/-- **C12 (ids).** After any history of `add_data` calls: labels and ids are in bijection with
`0..n-1`, a stored row carries the id of its labels, and every id is used by an added
classification. Datum ids count the added classifications. -/
theorem C12_ids (calls : List (List Classif)) :
    let s := Loader.init.addAll calls
    s.labels.Nodup ∧ s.datumCount = (history calls).length ∧
    (∀ batch ∈ s.rows, ∀ r ∈ batch,
      (0 ≤ r.gt ∧ s.labels[r.gt.toNat]? = some r.gtLabel) ∧
      (0 ≤ r.pd ∧ s.labels[r.pd.toNat]? = some r.pdLabel) ∧
      (r.isMatch = true ↔ r.gtLabel = r.pdLabel)) ∧
    (∀ x ∈ s.labels, ∃ c ∈ history calls, x = c.gt ∨ x ∈ c.preds) := by
  intro s
  have i := linv_reach calls
  refine ⟨i.nodup, i.count, ?_, i.onlyUsed⟩
  intro batch hb r hr
  rw [rows_reach calls] at hb
  obtain ⟨⟨c, k⟩, hc, rfl⟩ := List.mem_map.1 hb
  have hcm : c ∈ history calls := by
    have := List.mem_of_getElem? (List.mem_zipIdx_iff_getElem?.1 hc)
    exact this
  obtain ⟨u1, u2⟩ := i.used c hcm
  simp only [rowsOf, List.mem_map] at hr
  obtain ⟨⟨⟨p, sc⟩, j⟩, hj, rfl⟩ := hr
  have hp : p ∈ s.labels := by
    have := List.mem_of_getElem? (List.mem_zipIdx_iff_getElem?.1 hj)
    exact u2 (p, sc) this
  refine ⟨⟨by simp, ?_⟩, ⟨by simp, ?_⟩, by simp⟩
  · simpa using List.getElem?_idxOf u1
  · simpa using List.getElem?_idxOf hp

/-- **C12 (rows).** The `k`-th `write_rows` call carries the `k`-th added classification: one row per
prediction in order, datum id `k`, and exactly the first prediction with the highest score is marked
as the winner. -/
theorem C12_rows (calls : List (List Classif)) (hv : ∀ c ∈ calls.flatten, c.valid = true) :
    let s := Loader.init.addAll calls
    s.rows.length = (history calls).length ∧
    ∀ (k : Nat) (c : Classif), (history calls)[k]? = some c → ∃ batch : List Row, s.rows[k]? = some batch ∧
      batch.map (fun r => (r.pdLabel, r.score)) = c.preds.zip c.scores ∧
      batch.length = c.preds.length ∧
      (∀ r ∈ batch, r.datum = k ∧ r.uid = c.uid ∧ r.gtLabel = c.gt) ∧
      ∃ (w : Nat) (v : Rat), c.scores[w]? = some v ∧ (∀ y ∈ c.scores, y ≤ v) ∧
        (∀ j, j < w → ∀ y, c.scores[j]? = some y → y < v) ∧
        ∀ (j : Nat) (r : Row), batch[j]? = some r → (r.winner = true ↔ j = w) := by
  intro s
  have hrows := rows_reach calls
  constructor
  · rw [hrows]; simp
  intro k c hk
  have hmem : c ∈ history calls := List.mem_of_getElem? hk
  obtain ⟨cs, hcs, hacc⟩ := List.mem_flatMap.1 hmem
  have hval : c.preds.length = c.scores.length := by
    have : c ∈ cs := (List.takeWhile_prefix _).subset hacc
    have := hv c (List.mem_flatten.2 ⟨cs, hcs, this⟩)
    simpa [Classif.valid] using this
  have hne : c.scores ≠ [] := by
    have hall := List.mem_takeWhile_imp hacc
    intro h
    rw [h] at hval
    simp [hval] at hall
  obtain ⟨v, w1, w2, w3⟩ := argmax_spec c.scores hne
  refine ⟨rowsOf s.labels k c, ?_, ?_, ?_, ?_, argmax c.scores, v, w1, w2, w3, ?_⟩
  · rw [hrows]
    simp [hk]
    rfl
  · rw [rowsOf, List.map_map]
    have : ((fun r : Row => (r.pdLabel, r.score)) ∘ fun x : (String × Rat) × Nat =>
      ({ uid := c.uid, info := c.info, datum := k, gtLabel := c.gt, gt := s.labels.idxOf c.gt,
         pdLabel := x.1.1, pd := s.labels.idxOf x.1.1, score := x.1.2,
         winner := argmax c.scores == x.2, isMatch := decide (c.gt = x.1.1) } : Row)) = Prod.fst := by
      funext x; rfl
    rw [this]
    exact List.zipIdx_map_fst ..
  · simp [rowsOf, hval]
  · intro r hr
    simp only [rowsOf, List.mem_map] at hr
    obtain ⟨x, _, rfl⟩ := hr
    exact ⟨rfl, rfl, rfl⟩
  · intro j r hr
    simp only [rowsOf, List.getElem?_map, List.getElem?_zipIdx] at hr
    cases hz : (c.preds.zip c.scores)[j]? with
    | none => rw [hz] at hr; simp at hr
    | some q =>
      rw [hz] at hr
      simp at hr
      subst hr
      simp
      exact eq_comm

/-- Non-vacuity: a history with two calls, shared labels and a tie. -/
example :
    let s := Loader.init.addAll [[⟨"d0", "cat", ["cat", "dog"], [1/2, 1/2], ""⟩],
      [⟨"d1", "dog", ["bird", "cat"], [1/5, 4/5], ""⟩]]
    s.labels = ["cat", "dog", "bird"] ∧
      s.rows.map (List.map (fun r => (r.datum, r.gt, r.pd, r.winner)))
        = [[(0, 0, 0, true), (0, 0, 1, false)], [(1, 1, 2, false), (1, 1, 0, true)]] := by
  decide +kernel

end Verif.Classification
