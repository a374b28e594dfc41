import Verif.Classification.RocProps

/-! # C21: the area of a label that always scored zero -/

namespace Verif.Classification

theorem emit_zero : ∀ (rs : List IRow), (∀ r ∈ rs, r.score = 0) → ∀ fp tp, emit fp tp 0 rs = [] := by
  intro rs
  induction rs with
  | nil => intro _ _ _; rfl
  | cons r rs ih =>
    intro h fp tp
    have h0 := h r List.mem_cons_self
    rw [emit, if_pos h0, h0, ih (fun x hx => h x (List.mem_cons_of_mem _ hx)), List.append_nil]

/-- One point of the curve adds no area. -/
theorem fold_one {l gt pd : Nat} : ∀ (chunks : List (List RocRow)) (acc : Rat × Nat × Nat), (points l chunks.flatten).length ≤ 1 →
    (points l chunks.flatten ≠ [] → acc.2 = (0, 0)) → (chunks.foldl (rocChunk l gt pd) acc).1 = acc.1 := by
  intro chunks
  induction chunks with
  | nil => intro acc _ _; rfl
  | cons c cs ih =>
    intro acc h1 h2
    rw [List.flatten_cons, points_append] at h1 h2
    rw [List.length_append] at h1
    rw [List.foldl_cons]
    rcases hp : points l c with _ | ⟨p, ps⟩
    · have : rocChunk l gt pd acc c = acc := by
        unfold rocChunk
        unfold points at hp
        rw [hp]
        simp
      rw [this]
      rw [hp, List.nil_append] at h2
      exact ih acc (by omega) h2
    · have hps : ps = [] ∧ points l cs.flatten = [] := by
        rw [hp, List.length_cons] at h1
        exact ⟨List.length_eq_zero_iff.1 (by omega), List.length_eq_zero_iff.1 (by omega)⟩
      have h0 : acc.2 = (0, 0) := h2 (by rw [hp]; simp)
      rw [ih _ (by rw [hps.2]; simp) (fun h => absurd hps.2 h)]
      unfold rocChunk
      unfold points at hp
      rw [hp, hps.1, h0]
      by_cases hpd : pd = 0 <;> simp [hpd]

/-- **C21 (zero scores, exact).** A label that has the score 0 in every datum that scores it gets the area 0, whatever was added and however rows and curve
are cut into tables: the ranking statistic would be 1/2 (all ties). -/
theorem C21_zero_exact (calls : List (List Classif)) (hv : ∀ c ∈ calls.flatten, c.valid = true) {l : String}
    (hzero : ∀ c ∈ history calls, ∀ (i : Nat) (s : Rat), c.preds[i]? = some l → c.scores[i]? = some s → s = 0)
    (frags : List (List Row)) {tables : List (List IRow)} (hperm : tables.flatten.Perm ((Loader.init.addAll calls).rows.flatten.map irow))
    {chunks : List (List RocRow)}
    (hchunks : chunks.flatten = rocCurve (List.range (Loader.init.addAll calls).labels.length) (Loader.init.addAll calls).labels.length tables)
    (hl : l ∈ (Loader.init.addAll calls).labels) :
    rocauc frags chunks ((Loader.init.addAll calls).labels.idxOf l) = 0 := by
  have hcov := covers_reach calls hv
  have hk := List.idxOf_lt_length_iff.2 hl
  have hs : ∀ r ∈ only ((Loader.init.addAll calls).labels.idxOf l) tables.flatten, r.score = 0 := by
    intro r hr
    obtain ⟨hr1, hr2⟩ := List.mem_filter.1 hr
    obtain ⟨x, hx, rfl⟩ := List.mem_map.1 (hperm.subset hr1)
    rw [rows_reach calls] at hx
    obtain ⟨b, hb, hx⟩ := List.mem_flatten.1 hx
    obtain ⟨⟨c, k⟩, hc, rfl⟩ := List.mem_map.1 hb
    obtain ⟨i, p, s, h1, h2, rfl⟩ := mem_rowsOf.1 hx
    have hmem : c ∈ history calls := (List.mem_zipIdx' hc).2 ▸ List.getElem_mem _
    have hp : p = l := by
      have he : ((Loader.init.addAll calls).labels.idxOf p : Int) = ((Loader.init.addAll calls).labels.idxOf l : Nat) := by
        simpa [irow, rowOf] using hr2
      exact (List.idxOf_inj ((hcov c hmem).preds p (List.mem_of_getElem? h1))).1 (by exact_mod_cast he)
    subst hp
    exact hzero c hmem i s h1 h2
  have hpts : (points ((Loader.init.addAll calls).labels.idxOf l) chunks.flatten).length ≤ 1 := by
    rw [hchunks, points_curve List.nodup_range (List.mem_range.2 hk) hk, emit_zero _ hs, List.nil_append]
    split <;> simp
  unfold rocauc
  exact fold_one chunks (0, 0, 0) hpts (fun _ => rfl)

/-- The tied sample with zero scores. -/
example : (∀ c ∈ (tied 0).flatten, c.valid = true) ∧
    (∀ c ∈ history (tied 0), ∀ (i : Nat) (s : Rat), c.preds[i]? = some "a" → c.scores[i]? = some s → s = 0) ∧
    "a" ∈ (Loader.init.addAll (tied 0)).labels := by
  refine ⟨by decide +kernel, ?_, by decide +kernel⟩
  have h : history (tied 0) = [⟨"d0", "a", ["a", "b"], [0, 1/3], ""⟩, ⟨"d1", "b", ["a", "b"], [0, 1/4], ""⟩] := by decide +kernel
  rw [h]
  intro c hc i s
  simp only [List.mem_cons, List.not_mem_nil, or_false] at hc
  rcases hc with rfl | rfl <;> rcases i with _ | _ | i <;> simp <;> exact fun h => h.symm

end Verif.Classification
