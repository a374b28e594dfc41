import Verif.Classification.RocProps

/-! # C22: what a cut right after the first row of a label costs -/

namespace Verif.Classification

/-- The origin row leaves no trace. -/
theorem fold_origin {l gt pd : Nat} : ∀ (chunks : List (List RocRow)), (points l chunks.flatten).length ≤ 1 →
    (∀ x ∈ points l chunks.flatten, x = (0, 0)) → chunks.foldl (rocChunk l gt pd) (0, 0, 0) = (0, 0, 0) := by
  intro chunks
  induction chunks with
  | nil => intro _ _; rfl
  | cons c cs ih =>
    intro h1 h2
    rw [List.flatten_cons, points_append] at h1 h2
    rw [List.length_append] at h1
    have hc : rocChunk l gt pd (0, 0, 0) c = (0, 0, 0) := by
      rcases hp : points l c with _ | ⟨p, ps⟩
      · unfold points at hp
        unfold rocChunk
        rw [hp]
        simp
      · rw [hp, List.length_cons] at h1
        have hps : ps = [] := List.length_eq_zero_iff.1 (by omega)
        have h0 : p = (0, 0) := h2 p (by rw [hp]; simp)
        unfold points at hp
        unfold rocChunk
        rw [hp, hps, h0]
        by_cases hpd : pd = 0 <;> simp [hpd]
    rw [List.foldl_cons, hc]
    exact ih (by omega) (fun x hx => h2 x (List.mem_append_right _ hx))

/-- **C22 (cut after the first row, exact).** The rows of a label in the curve are the origin, the point `(fp, tp)` of its highest score, and further
points other than the origin. If the curve is cut into tables right after the origin row, the area reported is less than that of the uncut curve by
exactly the first triangle: `fp * tp / 2` over negatives times positives. Nothing is lost if `fp` or `tp` is 0, that is, without
a tie between a positive and a negative at the highest score. -/
theorem C22_cut_exact (frags : List (List Row)) (l : Nat) {a b : List (List RocRow)} {fp tp : Nat} {t : List RocRow}
    (hrows : (a ++ b).flatten.filter (fun r => decide (r.label = l)) = ⟨l, 0, 0⟩ :: ⟨l, fp, tp⟩ :: t)
    (hfirst : (fp, tp) ≠ (0, 0)) (hrest : ∀ r ∈ t, (r.fp, r.tp) ≠ (0, 0))
    (hcut : a.flatten.countP (fun r => decide (r.label = l)) = 1) (hpd : pdCount frags l ≠ 0) :
    rocauc frags (a ++ b) l = rocauc frags [(a ++ b).flatten] l
      - ((fp : Rat) * tp / 2) / ((negCount (pdCount frags l) (gtCount frags l) : Nat) * (gtCount frags l : Nat)) := by
  have hpts : points l a.flatten ++ points l b.flatten = (0, 0) :: (fp, tp) :: t.map (fun r => (r.fp, r.tp)) := by
    rw [← points_append, ← List.flatten_append]
    unfold points
    rw [hrows]
    rfl
  have hla : (points l a.flatten).length = 1 := by
    unfold points
    rw [List.length_map, ← List.countP_eq_length_filter, hcut]
  obtain ⟨p, hp⟩ := List.length_eq_one_iff.1 hla
  rw [hp, List.singleton_append, List.cons.injEq] at hpts
  have hne : ∀ x ∈ points l b.flatten, x ≠ (0, 0) := by
    intro x hx
    rw [hpts.2] at hx
    rcases List.mem_cons.1 hx with rfl | hx
    · exact hfirst
    · obtain ⟨r, hr, rfl⟩ := List.mem_map.1 hx
      exact hrest r hr
  have h1 : rocauc frags (a ++ b) l = area2 (points l b.flatten)
      / (2 * (negCount (pdCount frags l) (gtCount frags l) : Nat) * (gtCount frags l : Nat)) := by
    unfold rocauc
    rw [List.foldl_append, fold_origin a (by omega) (by
      intro x hx
      rw [hp, List.mem_singleton] at hx
      rw [hx]
      exact hpts.1)]
    rw [chunks_area l _ _ hpd b [] (0, 0, 0) (by simp [area2]) rfl (Or.inl rfl), List.nil_append]
    intro u v huv _ _
    rw [List.nil_append]
    by_cases he : points l u.flatten = []
    · exact Or.inl he
    · right
      rw [List.getLastD_eq_getLast?, List.getLast?_eq_getLast_of_ne_nil he]
      refine hne _ ?_
      rw [huv, List.flatten_append, points_append]
      exact List.mem_append_left _ (List.getLast_mem he)
  have h2 : rocauc frags [(a ++ b).flatten] l = area2 ((0, 0) :: points l b.flatten)
      / (2 * (negCount (pdCount frags l) (gtCount frags l) : Nat) * (gtCount frags l : Nat)) := by
    unfold rocauc
    rw [chunks_area l _ _ hpd [(a ++ b).flatten] [] (0, 0, 0) (by simp [area2]) rfl (Or.inl rfl), List.nil_append]
    · rw [List.flatten_singleton, List.flatten_append, points_append, hp, hpts.1, List.singleton_append]
    · intro u v huv hv hu
      obtain ⟨x, xs, rfl⟩ := List.exists_cons_of_ne_nil hu
      rw [List.cons_append, List.cons.injEq] at huv
      exact absurd (List.append_eq_nil_iff.1 huv.2.symm).2 hv
  rw [h1, h2, hpts.2, area2]
  push_cast
  ring

open Classical in
/-- **C22 (every division, exact).** However the curve is divided into tables, the area of a label is that of the undivided curve, less the first
triangle if some boundary comes right after the origin row of the label. So at most two values are possible. -/
theorem C22_splits_exact (frags : List (List Row)) (l : Nat) {chunks : List (List RocRow)} {fp tp : Nat} {t : List RocRow}
    (hrows : chunks.flatten.filter (fun r => decide (r.label = l)) = ⟨l, 0, 0⟩ :: ⟨l, fp, tp⟩ :: t)
    (hfirst : (fp, tp) ≠ (0, 0)) (hrest : ∀ r ∈ t, (r.fp, r.tp) ≠ (0, 0)) (hpd : pdCount frags l ≠ 0) :
    rocauc frags chunks l = rocauc frags [chunks.flatten] l
      - (if ∃ a b, chunks = a ++ b ∧ a.flatten.countP (fun r => decide (r.label = l)) = 1 then
          ((fp : Rat) * tp / 2) / ((negCount (pdCount frags l) (gtCount frags l) : Nat) * (gtCount frags l : Nat)) else 0) := by
  by_cases h : ∃ a b, chunks = a ++ b ∧ a.flatten.countP (fun r => decide (r.label = l)) = 1
  · rw [if_pos h]
    obtain ⟨a, b, rfl, hcut⟩ := h
    exact C22_cut_exact frags l hrows hfirst hrest hcut hpd
  · rw [if_neg h, sub_zero]
    refine C22_batches_partial frags l (by simp) ?_ (noOrigin_single l _)
    intro a b hab _ r hr h0
    apply h
    refine ⟨a, b, hab, ?_⟩
    rw [List.countP_eq_length_filter]
    rw [hab, List.flatten_append, List.filter_append] at hrows
    rcases hfa : a.flatten.filter (fun r => decide (r.label = l)) with _ | ⟨x, xs⟩
    · rw [hfa] at hr
      simp at hr
    · rw [hfa, List.cons_append, List.cons.injEq] at hrows
      by_cases hxs : xs = []
      · rw [hfa, hxs]; rfl
      · exfalso
        rw [hfa, List.getLast?_cons, List.getLast?_eq_getLast_of_ne_nil hxs] at hr
        have hm : r ∈ ⟨l, fp, tp⟩ :: t := by
          rw [← hrows.2, ← Option.some.inj hr]
          exact List.mem_append_left _ (List.getLast_mem hxs)
        rcases List.mem_cons.1 hm with rfl | hm
        · exact hfirst h0
        · exact hrest r hm h0

/-- The tied label of `C22_cut_violation`: half a point of the only pair is lost. -/
example : (rocCurve (List.range 2) 2 [((Loader.init.addAll (tied (1/2))).rows.flatten.map irow).insertionSort (fun a b => b.score ≤ a.score)]).filter
      (fun r => decide (r.label = 0)) = [⟨0, 0, 0⟩, ⟨0, 1, 1⟩] ∧
    pdCount [(Loader.init.addAll (tied (1/2))).rows.flatten] 0 = 2 ∧ gtCount [(Loader.init.addAll (tied (1/2))).rows.flatten] 0 = 1 := by
  decide +kernel

end Verif.Classification
