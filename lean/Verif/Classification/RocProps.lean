import Verif.Classification.RocArea
import Verif.Classification.ExamplesProps
import Mathlib.Data.List.Sort

/-! # C21, C22: ROCAUC -/

namespace Verif.Classification

/-! ## Specification -/

/-- The score a classification gives to a label (`none` if it does not mention it). -/
def givenScore (c : Classif) (l : String) : Option Rat := (c.preds.zip c.scores).lookup l

/-- Scores of the datums whose ground truth is `l`. -/
def positives (cs : List Classif) (l : String) : List Rat :=
  (cs.filter (fun c => decide (c.gt = l))).filterMap (fun c => givenScore c l)

/-- Scores of the datums whose ground truth is another label. -/
def negatives (cs : List Classif) (l : String) : List Rat :=
  (cs.filter (fun c => !decide (c.gt = l))).filterMap (fun c => givenScore c l)

/-- Over all pairs of a positive and a negative: the fraction in which the positive scores higher, ties
counting one half. -/
def mannWhitney (P N : List Rat) : Rat :=
  (N.map (fun n => (P.map (fun p => if n < p then 1 else if p = n then (1 / 2 : Rat) else 0)).sum)).sum
    / (P.length * N.length)

/-- No chunk boundary comes right after the first row of label `l`. -/
def NoCut (l : Nat) (chunks : List (List RocRow)) : Prop :=
  ∀ a b, chunks = a ++ b → b ≠ [] → a.flatten.countP (fun r => decide (r.label = l)) ≠ 1

/-! ## Counting labels -/

theorem sum_dc {m : Row → Bool} {f : Row → Int} {l : Int} (frags : List (List Row))
    (h : frags.Pairwise (fun a b => ∀ x ∈ a, ∀ y ∈ b, x.datum ≠ y.datum)) :
    (frags.map (fun r => dc r m f l)).sum = dc frags.flatten m f l := by
  induction frags with
  | nil => rfl
  | cons a fs ih =>
    rw [List.pairwise_cons] at h
    rw [List.map_cons, List.sum_cons, ih h.2, List.flatten_cons, dc_append]
    intro x hx y hy
    obtain ⟨b, hb, hy⟩ := List.mem_flatten.1 hy
    exact h.1 b hb x hx y hy

theorem gtCount_eq {frags : List (List Row)} {rows : List Row} (hf : FragmentsOf frags rows) (l : Nat) :
    gtCount frags l = dc rows (fun r => decide (r.gt ≥ 0)) Row.gt (l : Int) :=
  (sum_dc frags hf.aligned).trans (dc_perm hf.perm _ _ _)

theorem pdCount_eq {frags : List (List Row)} {rows : List Row} (hf : FragmentsOf frags rows) (l : Nat) :
    pdCount frags l = dc rows (fun r => decide (r.pd ≥ 0)) Row.pd (l : Int) :=
  (sum_dc frags hf.aligned).trans (dc_perm hf.perm _ _ _)

theorem dc_gt_blocks {L : List String} {l : String} (cs : List Classif) :
    ∀ n, (∀ c ∈ cs, Covers L c) →
    dc ((cs.zipIdx n).map (fun x => rowsOf L x.2 x.1)).flatten (fun r => decide (r.gt ≥ 0)) Row.gt (L.idxOf l : Nat)
      = cs.countP (fun c => decide (c.gt = l)) := by
  induction cs with
  | nil => intro n _; rfl
  | cons c cs ih =>
    intro n hc
    rw [List.zipIdx_cons, List.map_cons, List.flatten_cons, dc_append blocks_disjoint,
      ih (n + 1) (fun d hd => hc d (by simp [hd])), List.countP_cons, dc_block datum_rowsOf]
    have hcc := hc c (by simp)
    have hex := exists_row hcc n
    rw [Nat.add_comm]
    congr 1
    by_cases h : c.gt = l
    · rw [if_pos, if_pos (by simpa using h)]
      obtain ⟨r, hr⟩ := hex
      rw [List.any_eq_true]
      refine ⟨r, hr, ?_⟩
      obtain ⟨i, p, s, _, _, rfl⟩ := mem_rowsOf.1 hr
      simp [rowOf, h]
    · rw [if_neg, if_neg (by simpa using h)]
      rw [List.any_eq_true]
      rintro ⟨r, hr, hx⟩
      obtain ⟨i, p, s, _, _, rfl⟩ := mem_rowsOf.1 hr
      simp only [rowOf, Bool.and_eq_true, decide_eq_true_eq, Int.natCast_inj] at hx
      exact h ((List.idxOf_inj hcc.gt).1 hx.2)

theorem dc_pd_blocks {L : List String} {l : String} (cs : List Classif) :
    ∀ n, (∀ c ∈ cs, Covers L c) →
    dc ((cs.zipIdx n).map (fun x => rowsOf L x.2 x.1)).flatten (fun r => decide (r.pd ≥ 0)) Row.pd (L.idxOf l : Nat)
      = cs.countP (fun c => decide (l ∈ c.preds)) := by
  induction cs with
  | nil => intro n _; rfl
  | cons c cs ih =>
    intro n hc
    rw [List.zipIdx_cons, List.map_cons, List.flatten_cons, dc_append blocks_disjoint,
      ih (n + 1) (fun d hd => hc d (by simp [hd])), List.countP_cons, dc_block datum_rowsOf]
    have hcc := hc c (by simp)
    rw [Nat.add_comm]
    congr 1
    by_cases h : l ∈ c.preds
    · rw [if_pos, if_pos (by simpa using h)]
      rw [List.any_eq_true]
      obtain ⟨i, hi⟩ := List.mem_iff_getElem?.1 h
      have hlt : i < c.scores.length := by
        rw [← hcc.valid]; exact (List.getElem?_eq_some_iff.1 hi).1
      exact ⟨_, mem_rowsOf.2 ⟨i, l, _, hi, List.getElem?_eq_getElem hlt, rfl⟩, by simp [rowOf]⟩
    · rw [if_neg, if_neg (by simpa using h)]
      rw [List.any_eq_true]
      rintro ⟨r, hr, hx⟩
      obtain ⟨i, p, s, hp, _, rfl⟩ := mem_rowsOf.1 hr
      simp only [rowOf, Bool.and_eq_true, decide_eq_true_eq, Int.natCast_inj] at hx
      have hpm := List.mem_of_getElem? hp
      exact h ((List.idxOf_inj (hcc.preds p hpm)).1 hx.2 ▸ hpm)

/-! ## The rows of a label -/

theorem lookup_none {l : String} : ∀ (ps : List (String × Rat)), l ∉ ps.map Prod.fst → ps.lookup l = none := by
  intro ps
  induction ps with
  | nil => intro _; rfl
  | cons x ps ih =>
    intro h
    obtain ⟨p, s⟩ := x
    simp only [List.map_cons, List.mem_cons, not_or] at h
    rw [List.lookup_cons, ih h.2]
    simp [beq_eq_false_iff_ne.2 h.1]

theorem only_block (L : List String) (k : Nat) (c : Classif) {l : String} (ps : List (String × Rat)) : ∀ n,
    (∀ x ∈ ps, x.1 ∈ L) → (ps.map Prod.fst).Nodup →
    only (L.idxOf l) (((ps.zipIdx n).map (fun x => rowOf L k c x.2 x.1.1 x.1.2)).map irow)
      = ((ps.lookup l).map (fun s => (⟨(L.idxOf l : Nat), s, decide (c.gt = l)⟩ : IRow))).toList := by
  induction ps with
  | nil => intro n _ _; rfl
  | cons x ps ih =>
    intro n hL hnd
    obtain ⟨p, s⟩ := x
    rw [List.map_cons, List.nodup_cons] at hnd
    have hrest := ih (n + 1) (fun x hx => hL x (by simp [hx])) hnd.2
    rw [List.zipIdx_cons, List.map_cons, List.map_cons]
    unfold only at hrest ⊢
    rw [List.filter_cons, hrest, List.lookup_cons]
    by_cases h : p = l
    · subst h
      rw [lookup_none ps hnd.1]
      simp [irow, rowOf]
    · have h1 : ¬ L.idxOf p = L.idxOf l := fun e => h ((List.idxOf_inj (hL (p, s) (by simp))).1 e)
      have h2 : (l == p) = false := by simp [Ne.symm h]
      rw [h2, if_neg]
      simpa [irow, rowOf] using h1

/-- The rows of label `l`: one per classification that scores it. -/
def streamOf (L : List String) (cs : List Classif) (l : String) : List IRow :=
  cs.filterMap (fun c => (givenScore c l).map (fun s => (⟨(L.idxOf l : Nat), s, decide (c.gt = l)⟩ : IRow)))

theorem only_append (k : Nat) (a b : List IRow) : only k (a ++ b) = only k a ++ only k b := by
  simp [only]

theorem only_reach {L : List String} {l : String} (cs : List Classif) : ∀ n, (∀ c ∈ cs, Covers L c) →
    (∀ c ∈ cs, c.preds.Nodup) →
    only (L.idxOf l) (((cs.zipIdx n).map (fun x => rowsOf L x.2 x.1)).flatten.map irow) = streamOf L cs l := by
  induction cs with
  | nil => intro n _ _; rfl
  | cons c cs ih =>
    intro n hc hnd
    rw [List.zipIdx_cons, List.map_cons, List.flatten_cons, List.map_append, only_append,
      ih (n + 1) (fun d hd => hc d (by simp [hd])) (fun d hd => hnd d (by simp [hd]))]
    have hcc := hc c (by simp)
    have hb : only (L.idxOf l) ((rowsOf L n c).map irow)
        = ((givenScore c l).map (fun s => (⟨(L.idxOf l : Nat), s, decide (c.gt = l)⟩ : IRow))).toList := by
      have := only_block L n c (l := l) (c.preds.zip c.scores) 0
        (fun x hx => hcc.preds _ (List.of_mem_zip hx).1)
        (by rw [List.map_fst_zip (le_of_eq hcc.valid)]; exact hnd c (by simp))
      exact this
    simp only [] at hb ⊢
    rw [hb]
    unfold streamOf
    rw [List.filterMap_cons]
    cases givenScore c l <;> rfl

theorem stream_pos (L : List String) (cs : List Classif) (l : String) (q : Rat → Bool) :
    (streamOf L cs l).countP (fun r => r.isMatch && q r.score) = (positives cs l).countP q := by
  unfold streamOf positives
  induction cs with
  | nil => rfl
  | cons c cs ih =>
    rw [List.filterMap_cons, List.filter_cons]
    cases hs : givenScore c l with
    | none => by_cases h : c.gt = l <;> simp [h, hs, ih]
    | some s =>
      by_cases h : c.gt = l
      · simp [h, hs, ih, List.countP_cons]
      · simp [h, ih, List.countP_cons]

theorem stream_neg (L : List String) (cs : List Classif) (l : String) :
    ((streamOf L cs l).filter (fun r => !r.isMatch)).map IRow.score = negatives cs l := by
  unfold streamOf negatives
  induction cs with
  | nil => rfl
  | cons c cs ih =>
    rw [List.filterMap_cons, List.filter_cons]
    cases hs : givenScore c l with
    | none => by_cases h : c.gt = l <;> simp [h, hs, ih]
    | some s =>
      by_cases h : c.gt = l
      · simp [h, ih]
      · simp [h, hs, ih]

theorem stream_pos_scores (L : List String) (cs : List Classif) (l : String) :
    ((streamOf L cs l).filter (fun r => r.isMatch)).map IRow.score = positives cs l := by
  unfold streamOf positives
  induction cs with
  | nil => rfl
  | cons c cs ih =>
    rw [List.filterMap_cons, List.filter_cons]
    cases hs : givenScore c l with
    | none => by_cases h : c.gt = l <;> simp [h, hs, ih]
    | some s =>
      by_cases h : c.gt = l
      · simp [h, hs, ih]
      · simp [h, ih]

theorem pair_sum (P : List Rat) (n : Rat) :
    (P.map (fun p => if n < p then 1 else if p = n then (1 / 2 : Rat) else 0)).sum
      = (2 * (P.countP (fun p => decide (n < p)) : Nat) + (P.countP (fun p => decide (p = n)) : Nat)) / 2 := by
  induction P with
  | nil => simp
  | cons p P ih =>
    rw [List.map_cons, List.sum_cons, ih, List.countP_cons, List.countP_cons]
    by_cases h : n < p
    · have : ¬ p = n := fun e => by rw [e] at h; exact lt_irrefl _ h
      simp [h, this]; ring
    · by_cases h' : p = n
      · simp [h']; ring
      · simp [h, h']

theorem mw2_stream (L : List String) (cs : List Classif) (l : String) :
    mw2 (streamOf L cs l) / 2
      = ((negatives cs l).map (fun n => ((positives cs l).map
          (fun p => if n < p then 1 else if p = n then (1 / 2 : Rat) else 0)).sum)).sum := by
  unfold mw2
  have : (fun r : IRow => W (streamOf L cs l) r.score) = (fun n => W (streamOf L cs l) n) ∘ IRow.score := rfl
  rw [this, ← List.map_map, stream_neg]
  induction negatives cs l with
  | nil => simp
  | cons n ns ih =>
    rw [List.map_cons, List.sum_cons, List.map_cons, List.sum_cons, add_div, ih, pair_sum]
    congr 1
    unfold W
    rw [stream_pos L cs l (fun s => decide (n < s)), stream_pos L cs l (fun s => decide (s = n))]

theorem lengths_pn {l : String} (cs : List Classif) : (∀ c ∈ cs, c.gt = l → l ∈ c.preds) →
    (∀ c ∈ cs, l ∈ c.preds → ∃ s, givenScore c l = some s) → (∀ c ∈ cs, l ∉ c.preds → givenScore c l = none) →
    (positives cs l).length = cs.countP (fun c => decide (c.gt = l)) ∧
      (positives cs l).length + (negatives cs l).length = cs.countP (fun c => decide (l ∈ c.preds)) := by
  unfold positives negatives
  induction cs with
  | nil => intro _ _ _; exact ⟨rfl, rfl⟩
  | cons c cs ih =>
    intro hl hscore hnone
    obtain ⟨i1, i2⟩ := ih (fun d hd => hl d (by simp [hd]))
      (fun d hd => hscore d (by simp [hd])) (fun d hd => hnone d (by simp [hd]))
    rw [List.filter_cons, List.filter_cons, List.countP_cons, List.countP_cons]
    by_cases hp : l ∈ c.preds
    · obtain ⟨s, hs⟩ := hscore c (by simp) hp
      by_cases hg : c.gt = l
      · simp only [hg, hp, decide_true, if_true, Bool.not_true, Bool.false_eq_true, if_false,
          List.filterMap_cons, hs, List.length_cons]
        omega
      · simp only [hg, hp, decide_true, decide_false, if_true, Bool.not_false, Bool.false_eq_true, if_false,
          List.filterMap_cons, hs, List.length_cons]
        omega
    · have hg : ¬ c.gt = l := fun e => hp (hl c (by simp) e)
      have hs := hnone c (by simp) hp
      simp only [hg, hp, decide_false, if_true, Bool.not_false, Bool.false_eq_true, if_false,
        List.filterMap_cons, hs]
      omega

/-! ## The origin occurs only first -/

theorem emit_ne (rs : List IRow) : ∀ (fp tp : Nat) (run : Rat), 0 < fp + tp →
    ∀ x ∈ emit fp tp run rs, x ≠ (0, 0) := by
  induction rs with
  | nil => intro fp tp run _ x hx; simp [emit] at hx
  | cons r rs ih =>
    intro fp tp run h x hx
    rw [emit] at hx
    rcases List.mem_append.1 hx with hx | hx
    · split at hx
      · simp at hx
      · rw [List.mem_singleton.1 hx]
        intro e
        simp only [Prod.mk.injEq] at e
        omega
    · exact ih _ _ _ (by omega) x hx

theorem curve_form {r : IRow} {rs : List IRow} (h0 : r.score ≠ 0) :
    ∃ t, emit 0 0 0 (r :: rs) ++ [((r :: rs).countP (fun r => !r.isMatch), (r :: rs).countP IRow.isMatch)]
      = (0, 0) :: t ∧ ∀ x ∈ t, x ≠ (0, 0) := by
  rw [emit, if_neg h0]
  refine ⟨emit (0 + (!r.isMatch).toNat) (0 + r.isMatch.toNat) r.score rs
    ++ [((r :: rs).countP (fun r => !r.isMatch), (r :: rs).countP IRow.isMatch)], by simp, ?_⟩
  have hpos : 0 < (0 + (!r.isMatch).toNat) + (0 + r.isMatch.toNat) := by cases r.isMatch <;> decide
  intro x hx
  rcases List.mem_append.1 hx with hx | hx
  · exact emit_ne rs _ _ _ hpos x hx
  · rw [List.mem_singleton.1 hx]
    intro e
    simp only [Prod.mk.injEq, List.countP_cons] at e
    cases h : r.isMatch <;> simp [h] at e

/-! ## C21 -/

/-- One area of the whole pipeline in terms of the stream of the label. -/
theorem area_main {n k : Nat} (hk : k < n) {gt pd : Nat} (hpd : pd ≠ 0) {tables : List (List IRow)}
    {r : IRow} {rs : List IRow} (hs : only k tables.flatten = r :: rs) (h0 : r.score ≠ 0) (hd : Desc (r :: rs))
    {chunks : List (List RocRow)} (hc : chunks.flatten = rocCurve (List.range n) n tables) (hcut : NoCut k chunks) :
    (chunks.foldl (rocChunk k gt pd) (0, 0, 0)).1 = mw2 (r :: rs) / (2 * (negCount pd gt : Nat) * gt) := by
  have hp := points_curve List.nodup_range (List.mem_range.2 hk) hk tables
  rw [hs, if_neg (by simp)] at hp
  obtain ⟨t, ht, htne⟩ := curve_form (rs := rs) h0
  have := chunks_area k gt pd hpd chunks [] (0, 0, 0) (by simp [area2]) rfl (Or.inl rfl) (by
    intro a b hab hb _
    rw [List.nil_append]
    by_cases he : points k a.flatten = []
    · exact Or.inl he
    · right
      have hpre : points k a.flatten ++ points k b.flatten = (0, 0) :: t := by
        rw [← points_append, ← ht, ← hp, ← hc, hab, List.flatten_append]
      have hlen : (points k a.flatten).length ≠ 1 := by
        have := hcut a b hab hb
        rw [List.countP_eq_length_filter] at this
        unfold points
        rw [List.length_map]
        exact this
      obtain ⟨x, xs, hx⟩ := List.exists_cons_of_ne_nil he
      rw [hx] at hpre hlen ⊢
      rw [List.cons_append, List.cons.injEq] at hpre
      have hxs : xs ≠ [] := by
        rintro rfl
        exact hlen rfl
      have hl : (x :: xs).getLastD (0, 0) ∈ t := by
        rw [← hpre.2]
        apply List.mem_append_left
        rw [List.getLastD_eq_getLast?, List.getLast?_cons, List.getLast?_eq_getLast_of_ne_nil hxs]
        exact List.getLast_mem hxs
      exact htne _ hl)
  rw [this, List.nil_append, hc, hp, curve_area h0 hd]

/-- **C21, for labels whose highest score is not zero.** For every history of `add_data` calls with
distinct predicted labels per classification, every label scored by all datums that have it as ground
truth, every cut of the rows into datum-aligned tables, every sorted intermediate (as produced by the
merge sort, C05) in any split into tables, and every split of the ROC curve rows that does not cut right
after the first row of the label: the area is the Mann-Whitney statistic of the scores.
Missing for the full statement: the highest score of the label may not be zero (`C21_zero_violation`),
and the cut condition (`C22_cut_violation`). -/
theorem C21_rocauc_partial (calls : List (List Classif)) (hv : ∀ c ∈ calls.flatten, c.valid = true)
    (hnd : ∀ c ∈ history calls, c.preds.Nodup)
    {l : String} (hl : ∀ c ∈ history calls, c.gt = l → l ∈ c.preds)
    {top : Rat} (htop : top ∈ positives (history calls) l ++ negatives (history calls) l) (htop0 : top ≠ 0)
    (hmax : ∀ s ∈ positives (history calls) l ++ negatives (history calls) l, s ≤ top)
    {frags : List (List Row)} (hf : FragmentsOf frags (Loader.init.addAll calls).rows.flatten)
    {tables : List (List IRow)} (hperm : tables.flatten.Perm ((Loader.init.addAll calls).rows.flatten.map irow))
    (hsort : tables.flatten.Pairwise (fun a b => b.score ≤ a.score))
    {chunks : List (List RocRow)}
    (hchunks : chunks.flatten = rocCurve (List.range (Loader.init.addAll calls).labels.length)
      (Loader.init.addAll calls).labels.length tables)
    (hcut : NoCut ((Loader.init.addAll calls).labels.idxOf l) chunks) :
    rocauc frags chunks ((Loader.init.addAll calls).labels.idxOf l)
      = mannWhitney (positives (history calls) l) (negatives (history calls) l) := by
  have hcov := covers_reach calls hv
  set L := (Loader.init.addAll calls).labels with hL
  set cs := history calls with hcs
  have hstream : (only (L.idxOf l) tables.flatten).Perm (streamOf L cs l) := by
    have h1 : (only (L.idxOf l) tables.flatten).Perm
        (only (L.idxOf l) ((Loader.init.addAll calls).rows.flatten.map irow)) := hperm.filter _
    rw [rows_reach calls] at h1
    have h2 := only_reach (L := L) (l := l) cs 0 hcov hnd
    rw [← h2]
    exact h1
  have hscores : ((streamOf L cs l).map IRow.score).Perm (positives cs l ++ negatives cs l) := by
    rw [← stream_pos_scores L cs l, ← stream_neg L cs l, ← List.map_append]
    exact ((List.filter_append_perm _ _).map _).symm
  have hmemsc : ∀ r ∈ only (L.idxOf l) tables.flatten, r.score ∈ positives cs l ++ negatives cs l := by
    intro r hr
    exact hscores.subset (List.mem_map_of_mem (hstream.subset hr))
  have hdesc : Desc (only (L.idxOf l) tables.flatten) := hsort.sublist List.filter_sublist
  have hne : only (L.idxOf l) tables.flatten ≠ [] := by
    intro he
    rw [he] at hstream
    have h0 := hstream.symm.eq_nil
    rw [h0] at hscores
    have h1 := hscores.symm.eq_nil
    rw [h1] at htop
    simp at htop
  obtain ⟨r, rs, hrs⟩ := List.exists_cons_of_ne_nil hne
  have htopr : r.score = top := by
    apply le_antisymm
    · exact hmax _ (hmemsc r (by rw [hrs]; simp))
    · obtain ⟨x, hx, rfl⟩ := List.mem_map.1 (hscores.symm.subset htop)
      have hx' := hstream.symm.subset hx
      rw [hrs] at hx' hdesc
      rcases List.mem_cons.1 hx' with rfl | hx'
      · exact le_refl _
      · exact (List.pairwise_cons.1 hdesc).1 x hx'
  have hlL : l ∈ L := by
    rcases List.mem_append.1 htop with h | h
    · unfold positives at h
      obtain ⟨c, hc, hs⟩ := List.mem_filterMap.1 h
      have := (List.mem_filter.1 hc)
      have h1 := (hcov c this.1).gt
      rw [decide_eq_true_eq] at this
      rw [← this.2]
      exact h1
    · unfold negatives at h
      obtain ⟨c, hc, hs⟩ := List.mem_filterMap.1 h
      have hcm := (List.mem_filter.1 hc).1
      apply (hcov c hcm).preds
      by_contra hcon
      have := lookup_none (l := l) (c.preds.zip c.scores)
        (by rw [List.map_fst_zip (le_of_eq (hcov c hcm).valid)]; exact hcon)
      unfold givenScore at hs
      rw [this] at hs
      exact absurd hs (by simp)
  have hgt : gtCount frags (L.idxOf l) = cs.countP (fun c => decide (c.gt = l)) := by
    rw [gtCount_eq hf, rows_reach calls]
    exact dc_gt_blocks cs 0 hcov
  have hpd : pdCount frags (L.idxOf l) = cs.countP (fun c => decide (l ∈ c.preds)) := by
    rw [pdCount_eq hf, rows_reach calls]
    exact dc_pd_blocks cs 0 hcov
  have hscore : ∀ c ∈ cs, l ∈ c.preds → ∃ s, givenScore c l = some s := by
    intro c hc hp
    rw [← Option.isSome_iff_exists]
    unfold givenScore
    rw [List.lookup_isSome_iff]
    have : l ∈ (c.preds.zip c.scores).map Prod.fst := by
      rw [List.map_fst_zip (le_of_eq (hcov c hc).valid)]; exact hp
    obtain ⟨x, hx, he⟩ := List.mem_map.1 this
    exact ⟨x, hx, by simp [he]⟩
  have hnone : ∀ c ∈ cs, l ∉ c.preds → givenScore c l = none := by
    intro c hc hp
    exact lookup_none _ (by rw [List.map_fst_zip (le_of_eq (hcov c hc).valid)]; exact hp)
  have hP := lengths_pn cs hl hscore hnone
  have hpos : pdCount frags (L.idxOf l) ≠ 0 := by
    rw [hpd, ← hP.2, ← List.length_append]
    have := List.length_pos_of_mem htop
    omega
  unfold rocauc
  rw [area_main (idxOf_lt' hlL) hpos hrs (by rw [htopr]; exact htop0) (hrs ▸ hdesc) hchunks hcut]
  rw [← hrs, mw2_perm hstream, hgt, hpd, ← hP.1, ← hP.2]
  unfold mannWhitney
  rw [← mw2_stream L]
  have hneg : negCount ((positives cs l).length + (negatives cs l).length) (positives cs l).length
      = (negatives cs l).length := by
    unfold negCount
    rw [if_pos (by omega)]
    omega
  rw [hneg, div_div]
  congr 1
  ring

/-! ## C22 -/

/-- **C22, splits of the intermediate.** However the sorted intermediate is split into tables, the rows
written for each label are the same. -/
theorem C22_tables {n k : Nat} (hk : k < n) {t₁ t₂ : List (List IRow)} (h : t₁.flatten = t₂.flatten) :
    (rocCurve (List.range n) n t₁).filter (fun r => decide (r.label = k))
      = (rocCurve (List.range n) n t₂).filter (fun r => decide (r.label = k)) := by
  have h1 := points_curve List.nodup_range (List.mem_range.2 hk) hk t₁
  have h2 := points_curve List.nodup_range (List.mem_range.2 hk) hk t₂
  rw [h, ← h2] at h1
  unfold points at h1
  have back : ∀ rows : List RocRow, rows.filter (fun r => decide (r.label = k))
      = ((rows.filter (fun r => decide (r.label = k))).map (fun r => (r.fp, r.tp))).map
        (fun x => ⟨k, x.1, x.2⟩) := by
    intro rows
    rw [List.map_map]
    conv_lhs => rw [← List.map_id (rows.filter _)]
    apply List.map_congr_left
    intro r hr
    have := (List.mem_filter.1 hr).2
    rw [decide_eq_true_eq] at this
    rw [← this]
    rfl
  rw [back, h1, ← back]

/-- The last pair of label `l` before each chunk boundary is not the origin (or there is none). -/
def NoOrigin (l : Nat) (chunks : List (List RocRow)) : Prop :=
  ∀ a b, chunks = a ++ b → b ≠ [] →
    ∀ r, (a.flatten.filter (fun r => decide (r.label = l))).getLast? = some r → (r.fp, r.tp) ≠ (0, 0)

/-- **C22, for splits that do not cut right after an origin row.** Any two such splits of the same rows
give the same area. Missing for the full statement: a boundary right after the origin row
(`C22_cut_violation`). -/
theorem C22_batches_partial (frags : List (List Row)) (l : Nat) {c₁ c₂ : List (List RocRow)}
    (h : c₁.flatten = c₂.flatten) (h₁ : NoOrigin l c₁) (h₂ : NoOrigin l c₂) :
    rocauc frags c₁ l = rocauc frags c₂ l := by
  unfold rocauc
  by_cases hpd : pdCount frags l = 0
  · have : ∀ c : List (List RocRow), c.foldl (rocChunk l (gtCount frags l) (pdCount frags l)) (0, 0, 0) = (0, 0, 0) := by
      intro c
      induction c with
      | nil => rfl
      | cons x xs ih =>
        rw [List.foldl_cons, rocChunk, if_pos (Or.inl hpd)]
        exact ih
    rw [this, this]
  · have key : ∀ c : List (List RocRow), NoOrigin l c →
        (c.foldl (rocChunk l (gtCount frags l) (pdCount frags l)) (0, 0, 0)).1
          = area2 (points l c.flatten) / (2 * (negCount (pdCount frags l) (gtCount frags l) : Nat) * (gtCount frags l : Nat)) := by
      intro c hc
      rw [chunks_area l _ _ hpd c [] (0, 0, 0) (by simp [area2]) rfl (Or.inl rfl), List.nil_append]
      intro a b hab hb _
      rw [List.nil_append]
      have := hc a b hab hb
      unfold points
      cases hlast : (a.flatten.filter (fun r => decide (r.label = l))).getLast? with
      | none => left; rw [List.getLast?_eq_none_iff.1 hlast]; rfl
      | some r =>
        right
        rw [List.getLastD_eq_getLast?, List.getLast?_map, hlast]
        exact this r hlast
    rw [key c₁ h₁, key c₂ h₂, h]

/-- A single table satisfies the condition, so a split result equals the unsplit one. -/
theorem noOrigin_single (l : Nat) (c : List RocRow) : NoOrigin l [c] := by
  intro a b hab hb r hr
  cases a with
  | nil => simp at hr
  | cons x xs =>
    rw [List.cons_append, List.cons.injEq] at hab
    exact absurd (List.append_eq_nil_iff.1 hab.2.symm).2 hb

/-- Two datums that give label `a` the same score `s`. -/
def tied (s : Rat) : List (List Classif) :=
  [[⟨"d0", "a", ["a", "b"], [s, 1/3], ""⟩, ⟨"d1", "b", ["a", "b"], [s, 1/4], ""⟩]]

/-- The whole computation over one table in memory; `cut` splits the rows of the ROC curve. -/
def pipeline (calls : List (List Classif)) (cut : List RocRow → List (List RocRow)) (l : String) : Rat :=
  let s := Loader.init.addAll calls
  let n := s.labels.length
  let sorted := (s.rows.flatten.map irow).insertionSort (fun a b => b.score ≤ a.score)
  rocauc [s.rows.flatten] (cut (rocCurve (List.range n) n [sorted])) (s.labels.idxOf l)

/-- **C21 fails** for a label whose scores are all zero: the tie must count one half, the evaluator
reports zero. -/
theorem C21_zero_violation :
    pipeline (tied 0) (fun r => [r]) "a" = 0 ∧
    mannWhitney (positives (history (tied 0)) "a") (negatives (history (tied 0)) "a") = 1 / 2 := by
  decide +kernel

/-- **C22 fails** when a chunk boundary comes right after the first row of a label (for instance one row
per file): the area between the first two points is lost. -/
theorem C22_cut_violation :
    pipeline (tied (1/2)) (fun r => [r]) "a" = 1 / 2 ∧
    pipeline (tied (1/2)) (fun r => r.map (fun x => [x])) "a" = 0 := by
  decide +kernel

/-- The hypotheses of `C21_rocauc_partial` hold for `sample` and the label `dog`. -/
example : (∀ c ∈ sample.flatten, c.valid = true) ∧ (∀ c ∈ history sample, c.preds.Nodup) ∧
    (∀ c ∈ history sample, c.gt = "dog" → "dog" ∈ c.preds) ∧
    positives (history sample) "dog" = [1/10, 0] ∧ negatives (history sample) "dog" = [1/2] := by
  decide +kernel

example : NoOrigin 0 [[⟨0, 0, 0⟩, ⟨0, 1, 0⟩], [⟨0, 1, 1⟩]] := by
  intro a b hab hb r hr
  cases a with
  | nil => simp at hr
  | cons x xs =>
    simp only [List.cons_append, List.cons.injEq] at hab
    cases xs with
    | nil =>
      rw [← hab.1] at hr
      simp at hr
      rw [← hr]
      simp
    | cons y ys =>
      simp only [List.cons_append, List.cons.injEq] at hab
      exact absurd (List.append_eq_nil_iff.1 hab.2.2.symm).2 hb

end Verif.Classification
