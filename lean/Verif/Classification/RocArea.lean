import Verif.Classification.RocLemmas

/-! # The area under the emitted points -/

namespace Verif.Classification

/-- Twice the area under a sequence of points. -/
def area2 : List (Nat × Nat) → Rat
  | [] => 0
  | [_] => 0
  | a :: b :: rest => ((b.1 : Rat) - (a.1 : Rat)) * ((b.2 : Rat) + (a.2 : Rat)) + area2 (b :: rest)

/-- Twice the weight of the score `v` against the positives of `l`. -/
def W (l : List IRow) (v : Rat) : Rat :=
  2 * (l.countP (fun r => r.isMatch && decide (v < r.score)) : Nat)
    + (l.countP (fun r => r.isMatch && decide (r.score = v)) : Nat)

/-- Sum over the negatives of `J` with score at most `v`. -/
def S (l J : List IRow) (v : Rat) : Rat :=
  ((J.filter (fun r => !r.isMatch && decide (r.score ≤ v))).map (fun r => W l r.score)).sum

theorem sum_const (l : List IRow) (f : IRow → Rat) (c : Rat) (h : ∀ r ∈ l, f r = c) :
    (l.map f).sum = l.length * c := by
  induction l with
  | nil => simp
  | cons r l ih =>
    rw [List.map_cons, List.sum_cons, ih (fun x hx => h x (by simp [hx])), h r (by simp), List.length_cons]
    push_cast
    ring

theorem countP_zero {l : List IRow} {p : IRow → Bool} (h : ∀ r ∈ l, p r = false) : l.countP p = 0 := by
  rw [List.countP_eq_zero]
  intro r hr
  simp [h r hr]

theorem countP_split_gt {l : List IRow} {v : Rat} (h : ∀ r ∈ l, v ≤ r.score) (q : IRow → Bool) :
    l.countP q = l.countP (fun r => q r && decide (v < r.score)) + l.countP (fun r => q r && decide (r.score = v)) := by
  induction l with
  | nil => rfl
  | cons r l ih =>
    rw [List.countP_cons, List.countP_cons, List.countP_cons, ih (fun x hx => h x (by simp [hx]))]
    have hr := h r (by simp)
    rcases lt_or_eq_of_le hr with h1 | h1
    · have h2 : ¬ r.score = v := fun e => by rw [e] at h1; exact lt_irrefl _ h1
      cases hq : q r <;> simp [h1, h2] <;> omega
    · have h2 : ¬ v < r.score := by rw [h1]; exact lt_irrefl _
      cases hq : q r <;> simp [h2, h1.symm] <;> omega

theorem S_append (l a b : List IRow) (v : Rat) : S l (a ++ b) v = S l a v + S l b v := by
  unfold S
  rw [List.filter_append, List.map_append, List.sum_append]

/-- The segment that leaves the points with score `v`. -/
theorem segment {pre rs : List IRow} {v : Rat} (h1 : ∀ r ∈ pre, v ≤ r.score)
    (h2 : ∀ r ∈ rs, r.score < v) :
    ((pre.countP (fun r => !r.isMatch) : Nat) - (pre.countP (fun r => !r.isMatch && decide (v < r.score)) : Nat) : Rat)
      * ((pre.countP IRow.isMatch : Nat) + (pre.countP (fun r => r.isMatch && decide (v < r.score)) : Nat))
      = S (pre ++ rs) pre v := by
  unfold S
  rw [sum_const _ _ (W (pre ++ rs) v)]
  · rw [← List.countP_eq_length_filter]
    have e1 : pre.countP (fun r => !r.isMatch && decide (r.score ≤ v))
        = pre.countP (fun r => !r.isMatch && decide (r.score = v)) := by
      apply List.countP_congr
      intro r hr
      simp only [Bool.and_eq_true, decide_eq_true_eq]
      constructor
      · rintro ⟨a, b⟩; exact ⟨a, le_antisymm b (h1 r hr)⟩
      · rintro ⟨a, b⟩; exact ⟨a, le_of_eq b⟩
    rw [e1, countP_split_gt h1 (fun r => !r.isMatch), countP_split_gt h1 IRow.isMatch]
    unfold W
    have e2 : (pre ++ rs).countP (fun r => r.isMatch && decide (v < r.score))
        = pre.countP (fun r => r.isMatch && decide (v < r.score)) := by
      rw [List.countP_append, countP_zero (l := rs), Nat.add_zero]
      intro r hr
      have := h2 r hr
      simp [not_lt.2 (le_of_lt this)]
    have e3 : (pre ++ rs).countP (fun r => r.isMatch && decide (r.score = v))
        = pre.countP (fun r => r.isMatch && decide (r.score = v)) := by
      rw [List.countP_append, countP_zero (l := rs), Nat.add_zero]
      intro r hr
      have := h2 r hr
      simp [ne_of_lt this]
    rw [e2, e3]
    push_cast
    ring
  · intro r hr
    have := (List.mem_filter.1 hr)
    simp only [Bool.and_eq_true, decide_eq_true_eq] at this
    rw [le_antisymm this.2.2 (h1 r this.1)]

/-- Sorted by descending score. -/
def Desc (l : List IRow) : Prop := l.Pairwise (fun a b => b.score ≤ a.score)

theorem emit_area (rs : List IRow) : ∀ (pre : List IRow) (v : Rat), (∀ r ∈ pre, v ≤ r.score) →
    (∀ r ∈ rs, r.score ≤ v) → Desc rs →
    area2 ((pre.countP (fun r => !r.isMatch && decide (v < r.score)),
            pre.countP (fun r => r.isMatch && decide (v < r.score)))
        :: (emit (pre.countP (fun r => !r.isMatch)) (pre.countP IRow.isMatch) v rs
            ++ [((pre ++ rs).countP (fun r => !r.isMatch), (pre ++ rs).countP IRow.isMatch)]))
      = S (pre ++ rs) (pre ++ rs) v := by
  induction rs with
  | nil =>
    intro pre v h1 _ _
    simp only [emit, List.nil_append, List.append_nil, area2, add_zero]
    have := segment (rs := []) h1 (by simp)
    rw [List.append_nil] at this
    exact this
  | cons r rs ih =>
    intro pre v h1 h2 h3
    have hr := h2 r (by simp)
    have hd := List.pairwise_cons.1 h3
    have e1 : (pre ++ [r]).countP (fun r => !r.isMatch) = pre.countP (fun r => !r.isMatch) + (!r.isMatch).toNat := by
      rw [List.countP_append, List.countP_cons, List.countP_nil]
      cases r.isMatch <;> rfl
    have e2 : (pre ++ [r]).countP IRow.isMatch = pre.countP IRow.isMatch + r.isMatch.toNat := by
      rw [List.countP_append, List.countP_cons, List.countP_nil]
      cases r.isMatch <;> rfl
    have e3 : pre ++ r :: rs = (pre ++ [r]) ++ rs := by simp
    rw [emit, ← e1, ← e2, e3]
    by_cases hv : r.score = v
    · rw [if_pos hv, List.nil_append, hv]
      have := ih (pre ++ [r]) v (by
        intro x hx
        rcases List.mem_append.1 hx with hx | hx
        · exact h1 x hx
        · rw [List.mem_singleton.1 hx, hv]) (fun x hx => h2 x (by simp [hx])) hd.2
      rw [← this]
      congr 2
      have : ∀ q : IRow → Bool, (pre ++ [r]).countP (fun r => q r && decide (v < r.score))
          = pre.countP (fun r => q r && decide (v < r.score)) := by
        intro q
        rw [List.countP_append, countP_zero (l := [r]), Nat.add_zero]
        intro x hx
        rw [List.mem_singleton.1 hx, hv]
        simp
      rw [this, this]
    · have hlt : r.score < v := lt_of_le_of_ne hr hv
      rw [if_neg hv, List.cons_append, List.nil_append, List.cons_append, area2]
      have hpre : ∀ q : IRow → Bool, (pre ++ [r]).countP (fun x => q x && decide (r.score < x.score))
          = pre.countP q := by
        intro q
        rw [List.countP_append, countP_zero (l := [r]), Nat.add_zero]
        · apply List.countP_congr
          intro x hx
          have := lt_of_lt_of_le hlt (h1 x hx)
          simp [this]
        · intro x hx
          rw [List.mem_singleton.1 hx]
          simp
      have := ih (pre ++ [r]) r.score (by
        intro x hx
        rcases List.mem_append.1 hx with hx | hx
        · exact le_of_lt (lt_of_lt_of_le hlt (h1 x hx))
        · rw [List.mem_singleton.1 hx]) hd.1 hd.2
      rw [hpre (fun r => !r.isMatch), hpre IRow.isMatch] at this
      rw [this]
      simp only []
      have hseg := segment (rs := r :: rs) h1 (by
        intro x hx
        rcases List.mem_cons.1 hx with rfl | hx
        · exact hlt
        · exact lt_of_le_of_lt (hd.1 x hx) hlt)
      rw [e3] at hseg
      rw [hseg]
      have s1 : S (pre ++ [r] ++ rs) (pre ++ [r] ++ rs) r.score = S (pre ++ [r] ++ rs) (r :: rs) v := by
        have e4 : pre ++ [r] ++ rs = pre ++ (r :: rs) := by simp
        conv_lhs => rw [e4]
        rw [S_append, e4]
        have z : S (pre ++ r :: rs) pre r.score = 0 := by
          unfold S
          have : pre.filter (fun x => !x.isMatch && decide (x.score ≤ r.score)) = [] := by
            rw [List.filter_eq_nil_iff]
            intro x hx
            have := not_le.2 (lt_of_lt_of_le hlt (h1 x hx))
            simp [this]
          rw [this]
          rfl
        rw [z, zero_add]
        unfold S
        congr 2
        apply List.filter_congr
        intro x hx
        have hx1 : x.score ≤ r.score := by
          rcases List.mem_cons.1 hx with rfl | hx
          · exact le_refl _
          · exact hd.1 x hx
        have hx2 : x.score ≤ v := le_trans hx1 hr
        simp [hx1, hx2]
      rw [s1, ← S_append]
      congr 1

/-- Twice the pair statistic: for each negative the positives above it twice and the tied ones once. -/
def mw2 (l : List IRow) : Rat := ((l.filter (fun r => !r.isMatch)).map (fun r => W l r.score)).sum

/-- The area under the curve of a stream whose highest score is not zero. -/
theorem curve_area {r : IRow} {rs : List IRow} (h0 : r.score ≠ 0) (hd : Desc (r :: rs)) :
    area2 (emit 0 0 0 (r :: rs)
      ++ [((r :: rs).countP (fun r => !r.isMatch), (r :: rs).countP IRow.isMatch)]) = mw2 (r :: rs) := by
  have hd' := List.pairwise_cons.1 hd
  have := emit_area rs [r] r.score (by simp) hd'.1 hd'.2
  have e1 : [r].countP (fun r => !r.isMatch) = 0 + (!r.isMatch).toNat := by
    cases h : r.isMatch <;> simp [h]
  have e2 : [r].countP IRow.isMatch = 0 + r.isMatch.toNat := by
    cases h : r.isMatch <;> simp [h]
  have z : ∀ q : IRow → Bool, [r].countP (fun x => q x && decide (r.score < x.score)) = 0 := by
    intro q
    apply countP_zero
    intro x hx
    rw [List.mem_singleton.1 hx]
    simp
  rw [e1, e2, z (fun r => !r.isMatch), z IRow.isMatch] at this
  rw [emit, if_neg h0]
  simp only [List.cons_append, List.nil_append] at this ⊢
  rw [this]
  unfold S mw2
  congr 2
  apply List.filter_congr
  intro x hx
  have : x.score ≤ r.score := by
    rcases List.mem_cons.1 hx with rfl | hx
    · exact le_refl _
    · exact hd'.1 x hx
  simp [this]

theorem mw2_perm {a b : List IRow} (h : a.Perm b) : mw2 a = mw2 b := by
  unfold mw2
  have : ∀ v, W a v = W b v := by
    intro v
    unfold W
    rw [h.countP_eq, h.countP_eq]
  simp only [this]
  exact ((h.filter _).map _).sum_eq

/-! ## Chunks -/

theorem trapezoid_area2 (neg pos : Nat) (pts : List (Nat × Nat)) :
    trapezoid (pts.map (fun x => (ratio x.1 neg, ratio x.2 pos))) = area2 pts / (2 * neg * pos) := by
  have hr : ∀ x d : Nat, ratio x d = (x : Rat) / d := by
    intro x d
    unfold ratio
    split
    · rfl
    · have : d = 0 := by omega
      subst this
      simp
  simp only [hr]
  induction pts with
  | nil => simp [trapezoid, area2]
  | cons a pts ih =>
    cases pts with
    | nil => simp [trapezoid, area2]
    | cons b rest =>
      simp only [List.map_cons] at ih ⊢
      rw [trapezoid, ih, area2]
      rcases Nat.eq_zero_or_pos neg with h | h
      · subst h; simp
      · rcases Nat.eq_zero_or_pos pos with h' | h'
        · subst h'; simp
        · have h1 : (neg : Rat) ≠ 0 := by exact_mod_cast Nat.pos_iff_ne_zero.1 h
          have h2 : (pos : Rat) ≠ 0 := by exact_mod_cast Nat.pos_iff_ne_zero.1 h'
          field_simp

theorem area2_append (a : List (Nat × Nat)) : ∀ (x : Nat × Nat) (b : List (Nat × Nat)),
    area2 (a ++ x :: b) = area2 (a ++ [x]) + area2 (x :: b) := by
  induction a with
  | nil => intro x b; simp [area2]
  | cons y a ih =>
    intro x b
    cases a with
    | nil => simp only [List.cons_append, List.nil_append, area2]; ring
    | cons z a =>
      have := ih x b
      simp only [List.cons_append, area2] at this ⊢
      rw [this]
      ring

/-- The chunked computation of one label, when no chunk boundary isolates the origin. -/
theorem chunks_area (l gt pd : Nat) (hpd : pd ≠ 0) : ∀ (chunks : List (List RocRow)) (done : List (Nat × Nat))
    (acc : Rat × Nat × Nat),
    acc.1 = area2 done / (2 * (negCount pd gt : Nat) * gt) →
    acc.2 = done.getLastD (0, 0) →
    (done = [] ∨ acc.2 ≠ (0, 0)) →
    (∀ a b, chunks = a ++ b → b ≠ [] → a ≠ [] → done ++ points l a.flatten = [] ∨
      (done ++ points l a.flatten).getLastD (0, 0) ≠ (0, 0)) →
    (chunks.foldl (rocChunk l gt pd) acc).1
      = area2 (done ++ points l chunks.flatten) / (2 * (negCount pd gt : Nat) * gt) := by
  intro chunks
  induction chunks with
  | nil => intro done acc h1 _ _ _; simpa [points] using h1
  | cons c cs ih =>
    intro done acc h1 h2 h3 h4
    rw [List.foldl_cons, List.flatten_cons, points_append, ← List.append_assoc]
    have hstep : (rocChunk l gt pd acc c).1 = area2 (done ++ points l c) / (2 * (negCount pd gt : Nat) * gt) ∧
        (rocChunk l gt pd acc c).2 = (done ++ points l c).getLastD (0, 0) := by
      unfold rocChunk
      have hp : (c.filter (fun r => decide (r.label = l))).map (fun r => (r.fp, r.tp)) = points l c := rfl
      rw [hp]
      dsimp only
      by_cases hpts : points l c = []
      · rw [hpts, if_pos (Or.inr List.length_nil), List.append_nil]
        exact ⟨h1, h2⟩
      · rw [if_neg (by
          rintro (h | h)
          · exact hpd h
          · exact hpts (List.length_eq_zero_iff.1 h))]
        have hlast : ∀ x : List (Nat × Nat), (x ++ points l c).getLastD (0, 0) = (points l c).getLastD (0, 0) := by
          intro x
          simp only [List.getLastD_eq_getLast?, List.getLast?_append, List.getLast?_eq_getLast_of_ne_nil hpts]
          rfl
        rcases h3 with h3 | h3
        · have hz : acc.2 = (0, 0) := by rw [h2, h3]; rfl
          have hno : ¬ (acc.2.1 > 0 ∨ acc.2.2 > 0) := by rw [hz]; simp
          rw [if_neg hno, h3, List.nil_append]
          have ha : acc.1 = 0 := by rw [h1, h3]; simp [area2]
          split
          · rename_i hone
            refine ⟨?_, rfl⟩
            obtain ⟨x, hx⟩ := List.length_eq_one_iff.1 hone
            rw [hx]
            simp [area2, ha]
          · exact ⟨by rw [ha, trapezoid_area2, zero_add], rfl⟩
        · have hne : acc.2.1 > 0 ∨ acc.2.2 > 0 := by
            by_contra hcon
            apply h3
            rw [Prod.ext_iff]
            constructor
            · show acc.2.1 = 0; omega
            · show acc.2.2 = 0; omega
          have hdne : done ≠ [] := by
            intro hcon
            rw [hcon] at h2
            exact h3 h2
          rw [if_pos hne, if_neg (by
            rw [List.length_cons]
            have := List.length_pos_iff.2 hpts
            omega)]
          constructor
          · simp only []
            rw [h1, trapezoid_area2, h2]
            have hdone : done = done.dropLast ++ [done.getLastD (0, 0)] := by
              rw [List.getLastD_eq_getLast?, List.getLast?_eq_getLast_of_ne_nil hdne, Option.getD_some]
              exact (List.dropLast_append_getLast hdne).symm
            have e : done ++ points l c = done.dropLast ++ done.getLastD (0, 0) :: points l c := by
              conv_lhs => rw [hdone]
              simp
            rw [e, area2_append, ← hdone, add_div]
          · simp only []
            rw [hlast]
            exact hlast [acc.2]
    by_cases hcs : cs = []
    · subst hcs
      rw [List.foldl_nil, hstep.1]
      simp [points]
    apply ih (done ++ points l c) _ hstep.1 hstep.2
    · rw [hstep.2]
      have := h4 [c] cs rfl hcs (by simp)
      simpa using this
    · intro a b hab hb _
      have := h4 (c :: a) b (by rw [hab]; rfl) hb (by simp)
      simpa [points_append] using this

end Verif.Classification
