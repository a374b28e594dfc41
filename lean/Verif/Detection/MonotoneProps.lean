import Verif.Detection.ApProps
import Verif.Detection.CmProps
import Verif.Detection.FilterProps
import Verif.Detection.InfoProps

/-!
# C81: a stricter threshold never finds more (object detection)

Raising the IoU threshold never raises precision, recall, F1 or average precision of a label; raising the score
threshold never raises its recall. The same for the cells of the confusion matrix.
-/

namespace Verif.Detection

open Verif.Cache
open Verif.Classification (unique)

theorem dedup_length_mono {β : Type} [DecidableEq β] {a b : List β} (h : ∀ x ∈ a, x ∈ b) :
    a.dedup.length ≤ b.dedup.length := by
  rw [← List.card_toFinset, ← List.card_toFinset]
  exact Finset.card_le_card (fun x hx => by rw [List.mem_toFinset] at hx ⊢; exact h x hx)

/-! ## Counts -/

/-- **C81 (true positives).** For positive IoU thresholds: with a higher IoU threshold and a higher score threshold a
label has at most as many true positives. For every cut of the ranked cache. -/
theorem C81_tp_partial {tables : List (List Row)} (hc : CacheOk tables) {out : List RRow} (h : RankedOf tables out)
    {t t' : Rat} (ht : 0 < t) (htt : t ≤ t') {s s' : Rat} (hs : s ≤ s') (l : Int) (chunks : List (List RRow))
    (hch : chunks.flatten = out) : tpTotal t' s' chunks l ≤ tpTotal t s chunks l := by
  rw [C28_tp hc h ht s l chunks hch, C28_tp hc h (lt_of_lt_of_le ht htt) s' l chunks hch]
  apply dedup_length_mono
  intro x hx
  obtain ⟨r, hr, rfl⟩ := List.mem_map.1 hx
  rw [List.mem_filter, decide_eq_true_eq] at hr
  obtain ⟨h1, ⟨h2, h3, h4⟩, h5, h6⟩ := hr
  exact List.mem_map.2 ⟨r, List.mem_filter.2 ⟨h1, by
    rw [decide_eq_true_eq]; exact ⟨⟨h2, le_trans hs h3, h4⟩, h5, le_trans htt h6⟩⟩, rfl⟩

/-- **C81 (predictions).** The number of predictions that are judged does not depend on the IoU threshold, and does
not grow with the score threshold; so a higher IoU threshold never gives fewer false positives. -/
theorem C81_predictions (t t' : Rat) {s s' : Rat} (hs : s ≤ s') (l : Int) (chunks : List (List RRow)) :
    tpTotal t' s' chunks l + fpTotal t' s' chunks l ≤ tpTotal t s chunks l + fpTotal t s chunks l ∧
    tpTotal t' s chunks l + fpTotal t' s chunks l = tpTotal t s chunks l + fpTotal t s chunks l := by
  refine ⟨?_, by rw [C28_tp_fp, C28_tp_fp]⟩
  rw [C28_tp_fp, C28_tp_fp]
  apply List.Sublist.length_le
  apply List.monotone_filter_right
  intro r hr
  rw [decide_eq_true_eq] at hr ⊢
  exact ⟨hr.1, le_trans hs hr.2.1, hr.2.2⟩

theorem recall_mono {a b n : Nat} (h : a ≤ b) : recall a n ≤ recall b n := by
  unfold recall
  split
  · exact div_le_div_of_nonneg_right (by exact_mod_cast h) (by positivity)
  · exact le_refl _

theorem precision_mono {a a' b b' : Nat} (h : a ≤ b) (he : a + a' = b + b') : precision a a' ≤ precision b b' := by
  unfold precision
  rw [he]
  split
  · exact div_le_div_of_nonneg_right (by exact_mod_cast h) (by positivity)
  · exact le_refl _

theorem harmonic_mono {p p' r r' : Rat} (hp0 : 0 ≤ p) (hr0 : 0 ≤ r) (hp : p ≤ p') (hr : r ≤ r') : f1 p r ≤ f1 p' r' := by
  have he : (0 : Rat) < EPSILON := by unfold EPSILON; norm_num
  unfold f1
  split
  · rename_i h1
    rw [if_pos (by linarith), div_le_div_iff₀ (by linarith) (by linarith)]
    have h2 : 0 ≤ p' := le_trans hp0 hp
    have h3 : 0 ≤ r' := le_trans hr0 hr
    have h4 : p * p' * r ≤ p * p' * r' := mul_le_mul_of_nonneg_left hr (mul_nonneg hp0 h2)
    have h5 : p * (r * r') ≤ p' * (r * r') := mul_le_mul_of_nonneg_right hp (mul_nonneg hr0 h3)
    nlinarith
  · split
    · rename_i h2
      apply div_nonneg _ (by linarith)
      have := mul_nonneg (le_trans hp0 hp) (le_trans hr0 hr)
      linarith
    · exact le_refl _

theorem precision_nonneg (a b : Nat) : 0 ≤ precision a b := by
  unfold precision; split
  · positivity
  · exact le_refl _

theorem recall_nonneg (a b : Nat) : 0 ≤ recall a b := by
  unfold recall; split
  · positivity
  · exact le_refl _

theorem length_filter_split {α : Type} (p q : α → Bool) (l : List α) :
    (l.filter p).length = (l.filter (fun r => p r && q r)).length + (l.filter (fun r => p r && !q r)).length := by
  induction l with
  | nil => rfl
  | cons a l ih =>
    simp only [List.filter_cons]
    cases p a <;> cases q a <;> simp [ih] <;> omega

/-- **C81 (false positives).** For positive IoU thresholds: with a higher score threshold a label has at most as many false
positives. -/
theorem C81_fp_partial {tables : List (List Row)} (hc : CacheOk tables) {out : List RRow} (h : RankedOf tables out)
    {t : Rat} (ht : 0 < t) {s s' : Rat} (hs : s ≤ s') (l : Int) (chunks : List (List RRow))
    (hch : chunks.flatten = out) : fpTotal t s' chunks l ≤ fpTotal t s chunks l := by
  have key : ∀ x : Rat, fpTotal t x chunks l = (out.filter (fun r => decide (Active x l r) && !tpOuter t r)).length := by
    intro x
    have h1 := C28_tp_fp t x l chunks
    rw [hch, tpTotal_eq hc h ht x l chunks hch, length_filter_split (fun r => decide (Active x l r)) (tpOuter t)] at h1
    have h2 : out.filter (fun r => decide (r.row.pl = l) && tpInner t x r)
        = out.filter (fun r => decide (Active x l r) && tpOuter t r) := by
      apply List.filter_congr
      intro r _
      rw [Bool.eq_iff_iff]
      rw [Bool.and_eq_true, Bool.and_eq_true, decide_eq_true_eq, decide_eq_true_eq]
      simp only [Active, tpInner, tpOuter, scoreNonzero, Bool.and_eq_true, decide_eq_true_eq, gt_iff_lt, ge_iff_le]
      tauto
    rw [h2] at h1
    omega
  rw [key, key]
  apply List.Sublist.length_le
  apply List.monotone_filter_right
  intro r hr
  rw [Bool.and_eq_true, decide_eq_true_eq] at hr ⊢
  obtain ⟨⟨h1, h2, h3⟩, h4⟩ := hr
  exact ⟨⟨h1, le_trans hs h2, h3⟩, h4⟩

/-- **C81 (metrics).** For positive IoU thresholds: raising the IoU threshold never raises the precision, the recall
or the F1 of a label, and raising the score threshold never raises the recall. -/
theorem C81_metrics_partial {tables : List (List Row)} (hc : CacheOk tables) {out : List RRow} (h : RankedOf tables out)
    {t t' : Rat} (ht : 0 < t) (htt : t ≤ t') (s : Rat) (l : Int) (chunks : List (List RRow)) (hch : chunks.flatten = out) :
    precision (tpTotal t' s chunks l) (fpTotal t' s chunks l) ≤ precision (tpTotal t s chunks l) (fpTotal t s chunks l) ∧
    recall (tpTotal t' s chunks l) (gtCount tables l) ≤ recall (tpTotal t s chunks l) (gtCount tables l) ∧
    f1 (precision (tpTotal t' s chunks l) (fpTotal t' s chunks l)) (recall (tpTotal t' s chunks l) (gtCount tables l))
      ≤ f1 (precision (tpTotal t s chunks l) (fpTotal t s chunks l)) (recall (tpTotal t s chunks l) (gtCount tables l)) ∧
    ∀ s', s ≤ s' → recall (tpTotal t s' chunks l) (gtCount tables l) ≤ recall (tpTotal t s chunks l) (gtCount tables l) := by
  have h1 := precision_mono (C81_tp_partial hc h ht htt (le_refl s) l chunks hch) (C81_predictions t t' (le_refl s) l chunks).2
  have h2 := recall_mono (n := gtCount tables l) (C81_tp_partial hc h ht htt (le_refl s) l chunks hch)
  exact ⟨h1, h2, harmonic_mono (precision_nonneg _ _) (recall_nonneg _ _) h1 h2,
    fun s' hs => recall_mono (C81_tp_partial hc h ht (le_refl t) hs l chunks hch)⟩

/-! ## Average precision -/

theorem decisions_append (t : Rat) (l : Int) (before a b : List RRow) :
    decisions t l before (a ++ b) = decisions t l before a ++ decisions t l (before ++ a) b := by
  induction a generalizing before with
  | nil => simp [decisions]
  | cons r a ih =>
    rw [List.cons_append, decisions, decisions]
    split
    · rw [ih, List.cons_append, List.append_assoc]; rfl
    · rw [ih, List.append_assoc]; rfl

/-- Cutting the decisions of a label is cutting the ranked rows, at the same place for all thresholds. -/
theorem decisions_take (l : Int) (before rows : List RRow) (k : Nat) :
    ∃ pre post, rows = pre ++ post ∧ ∀ t, (decisions t l before rows).take k = decisions t l before pre := by
  induction rows generalizing before k with
  | nil => exact ⟨[], [], rfl, fun t => by simp [decisions]⟩
  | cons r rows ih =>
    by_cases hl : r.row.pl = l
    · cases k with
      | zero => exact ⟨[], r :: rows, rfl, fun t => by simp [decisions]⟩
      | succ k =>
        obtain ⟨pre, post, h1, h2⟩ := ih (before ++ [r]) k
        refine ⟨r :: pre, post, by rw [h1]; rfl, fun t => ?_⟩
        rw [decisions, if_pos hl, List.take_succ_cons, h2, decisions, if_pos hl]
    · obtain ⟨pre, post, h1, h2⟩ := ih (before ++ [r]) k
      refine ⟨r :: pre, post, by rw [h1]; rfl, fun t => ?_⟩
      rw [decisions, if_neg hl, h2, decisions, if_neg hl]

theorem decisions_length (t t' : Rat) (l : Int) (before rows : List RRow) :
    (decisions t l before rows).length = (decisions t' l before rows).length := by
  induction rows generalizing before with
  | nil => rfl
  | cons r rows ih =>
    rw [decisions, decisions]
    split
    · rw [List.length_cons, List.length_cons, ih]
    · exact ih _

/-- The correct decisions among ranked rows are the ground truths that these rows cover. -/
theorem decisions_count (t : Rat) (l : Int) (rows : List RRow) (hsort : rows.Pairwise (fun a b => b.row.score ≤ a.row.score)) :
    (decisions t l [] rows).count true
      = ((rows.filter (fun r => decide (r.row.pl = l ∧ EPSILON < r.row.score ∧ Covers t r))).map
          (fun r => (r.row.datum, r.row.gt))).dedup.length := by
  induction rows using List.reverseRecOn with
  | nil => rfl
  | append_singleton rows r ih =>
    rw [List.pairwise_append] at hsort
    have hbefore : ∀ x ∈ rows, r.row.score ≤ x.row.score := fun x hx => hsort.2.2 x hx r (by simp)
    rw [decisions_append, List.count_append, ih hsort.1, List.filter_append, List.map_append, List.nil_append]
    have hlast : decisions t l rows [r]
        = if r.row.pl = l then [decide (EPSILON < r.row.score ∧ FirstAt t rows r)] else [] := by
      rw [decisions, decisions]
    rw [hlast]
    by_cases hin : r.row.pl = l ∧ EPSILON < r.row.score ∧ Covers t r
    · rw [if_pos hin.1, List.filter_cons_of_pos (by simpa using hin), List.filter_nil, List.map_singleton]
      have hkey : (FirstAt t rows r) ↔ (r.row.datum, r.row.gt) ∉ (rows.filter (fun r => decide (r.row.pl = l ∧ EPSILON < r.row.score ∧ Covers t r))).map
          (fun r => (r.row.datum, r.row.gt)) := by
        constructor
        · rintro ⟨-, -, h3⟩ hm
          obtain ⟨x, hx, he⟩ := List.mem_map.1 hm
          rw [List.mem_filter, decide_eq_true_eq] at hx
          obtain ⟨hx1, hx2, -, hx3, hx4⟩ := hx
          rw [Prod.mk.injEq] at he
          exact absurd (h3 x hx1 ⟨he.1, he.2, by rw [hx3.2, hx2, hin.2.2.1.2, hin.1]⟩ hx3) (not_lt.2 hx4)
        · intro hm
          refine ⟨hin.2.2.1, hin.2.2.2, ?_⟩
          intro x hx hsame hmx
          by_contra hlt
          apply hm
          refine List.mem_map.2 ⟨x, List.mem_filter.2 ⟨hx, ?_⟩, by rw [hsame.1, hsame.2.1]⟩
          rw [decide_eq_true_eq]
          exact ⟨by rw [← hmx.2, hsame.2.2, hin.2.2.1.2, hin.1], lt_of_lt_of_le hin.2.1 (hbefore x hx), hmx, not_lt.1 hlt⟩
      generalize (rows.filter (fun r => decide (r.row.pl = l ∧ EPSILON < r.row.score ∧ Covers t r))).map
          (fun r => (r.row.datum, r.row.gt)) = xs at hkey ⊢
      by_cases hf : FirstAt t rows r
      · rw [dedup_append_disjoint (by
          intro x hx hx'
          rw [List.mem_singleton] at hx'
          subst hx'
          exact hkey.1 hf hx)]
        simp [hf, hin.2.1]
      · have hmem : (r.row.datum, r.row.gt) ∈ xs := by
          by_contra hno
          exact hf (hkey.2 hno)
        have : (xs ++ [(r.row.datum, r.row.gt)]).dedup.length = xs.dedup.length := by
          apply le_antisymm
          · apply dedup_length_mono
            intro x hx
            rw [List.mem_append, List.mem_singleton] at hx
            rcases hx with hx | rfl
            · exact hx
            · exact hmem
          · apply dedup_length_mono
            intro x hx
            rw [List.mem_append]; exact Or.inl hx
        rw [this]
        simp [hf]
    · rw [List.filter_cons_of_neg (by simpa using hin), List.filter_nil, List.map_nil, List.append_nil]
      by_cases hl : r.row.pl = l
      · rw [if_pos hl]
        have : ¬ (EPSILON < r.row.score ∧ FirstAt t rows r) := fun hh => hin ⟨hl, hh.1, hh.2.1, hh.2.2.1⟩
        simp [this]
      · rw [if_neg hl]; simp

theorem hits_threshold_mono {t t' : Rat} (htt : t ≤ t') (l : Int) {out : List RRow}
    (hsort : out.Pairwise (fun a b => b.row.score ≤ a.row.score)) (k : Nat) :
    hits (decisions t' l [] out) k ≤ hits (decisions t l [] out) k := by
  obtain ⟨pre, post, h1, h2⟩ := decisions_take l [] out k
  unfold hits
  rw [h2, h2]
  have hp : pre.Pairwise (fun a b => b.row.score ≤ a.row.score) := by
    rw [h1, List.pairwise_append] at hsort; exact hsort.1
  rw [decisions_count t l pre hp, decisions_count t' l pre hp]
  apply dedup_length_mono
  intro x hx
  obtain ⟨r, hr, rfl⟩ := List.mem_map.1 hx
  rw [List.mem_filter, decide_eq_true_eq] at hr
  exact List.mem_map.2 ⟨r, List.mem_filter.2 ⟨hr.1, by
    rw [decide_eq_true_eq]; exact ⟨hr.2.1, hr.2.2.1, hr.2.2.2.1, le_trans htt hr.2.2.2.2⟩⟩, rfl⟩

theorem interpolated_mono {n : Nat} {ds ds' : List Bool} (hlen : ds'.length = ds.length)
    (hh : ∀ k, hits ds' k ≤ hits ds k) {j : Nat} {v v' : Rat} (hv : Interpolated n ds j v) (hv' : Interpolated n ds' j v') :
    v' ≤ v := by
  have hnn : 0 ≤ v := by
    rcases hv.2 with ⟨h, _⟩ | ⟨k, _, h⟩
    · rw [h]
    · rw [h]; exact (precisionAt_range ds k).1
  rcases hv'.2 with ⟨h, _⟩ | ⟨k, ⟨h1, h2, h3⟩, h⟩
  · rw [h]; exact hnn
  · rw [h]
    have hk : (hits ds' k : Rat) ≤ (hits ds k : Rat) := by exact_mod_cast hh k
    refine le_trans ?_ (hv.1 k ⟨h1, by omega, le_trans h3 (div_le_div_of_nonneg_right hk (by positivity))⟩)
    unfold precisionAt
    exact div_le_div_of_nonneg_right hk (by positivity)

theorem sum_mono {a b : List Rat} (hl : a.length = b.length) (h : ∀ (j : Nat) (h1 : j < a.length) (h2 : j < b.length), a[j] ≤ b[j]) :
    a.sum ≤ b.sum := by
  induction a generalizing b with
  | nil => cases b with
    | nil => exact le_refl _
    | cons _ _ => simp at hl
  | cons x a ih => cases b with
    | nil => simp at hl
    | cons y b =>
      rw [List.sum_cons, List.sum_cons]
      have h0 := h 0 (by simp) (by simp)
      have := ih (b := b) (by simpa using hl) (fun j h1 h2 => by
        have := h (j + 1) (by simpa using h1) (by simpa using h2)
        simpa using this)
      simp only [List.getElem_cons_zero] at h0
      linarith

theorem ranked_scores {tables : List (List Row)} {out : List RRow} (h : RankedOf tables out) :
    out.Pairwise (fun a b => b.row.score ≤ a.row.score) := by
  have := h.1
  unfold SortedBy at this
  refine this.imp ?_
  intro a b hab
  rcases rankKey_le.1 hab with h | h
  · exact h.le
  · exact h.1.le

/-- **C81 (average precision).** For positive IoU thresholds: raising the IoU threshold raises no interpolated
precision of the curve and does not raise the average precision, although a prediction that was wrong can become right
when a better ranked one for the same ground truth no longer counts. -/
theorem C81_average_precision_partial {tables : List (List Row)} (hc : CacheOk tables) {out : List RRow} (h : RankedOf tables out)
    {t t' : Rat} (ht : 0 < t) (htt : t ≤ t') (l : Int) (chunks : List (List RRow)) (hch : chunks.flatten = out) :
    List.Forall₂ (fun a b : Rat => a ≤ b) (interpolated (curveOf t' (gtCount tables l) l chunks).prec)
      (interpolated (curveOf t (gtCount tables l) l chunks).prec) ∧
    averagePrecision (curveOf t' (gtCount tables l) l chunks).prec ≤ averagePrecision (curveOf t (gtCount tables l) l chunks).prec := by
  obtain ⟨a1, a2, a3, -⟩ := C29_cache hc h ht l chunks hch
  obtain ⟨b1, b2, b3, -⟩ := C29_cache hc h (lt_of_lt_of_le ht htt) l chunks hch
  rw [a3, b3]
  generalize interpolated (curveOf t' (gtCount tables l) l chunks).prec = y at b1 b2 ⊢
  generalize interpolated (curveOf t (gtCount tables l) l chunks).prec = x at a1 a2 ⊢
  have key : ∀ (j : Nat) (h1 : j < y.length) (h2 : j < x.length), y[j] ≤ x[j] :=
    fun j h1 h2 => interpolated_mono (decisions_length t' t l [] out) (hits_threshold_mono htt l (ranked_scores h)) (a2 j h2) (b2 j h1)
  refine ⟨List.forall₂_iff_get.2 ⟨by rw [a1, b1], key⟩, ?_⟩
  exact div_le_div_of_nonneg_right (sum_mono (by rw [a1, b1]) key) (by norm_num)

/-- **C81 (violation).** A single prediction that covers its ground truth is found with an IoU threshold of 1/2 and not
with one of 0, so that the stricter threshold finds more. -/
theorem C81_zero_violation : RankedOf (rowsIn [[oneRow]]) (rankTable [oneRow.row]) ∧
    tpTotal 0 0 [rankTable [oneRow.row]] 0 = 0 ∧ tpTotal (1 / 2) 0 [rankTable [oneRow.row]] 0 = 1 := by
  refine ⟨rankedOf_mem [oneRow.row], ?_, ?_⟩
  · rw [oneRanked_eq]; decide +kernel
  · rw [oneRanked_eq]; decide +kernel

/-- The cache of `C28` meets the hypotheses; the higher threshold finds less. -/
example : ∃ out, CacheOk sampleTables ∧ RankedOf sampleTables out ∧
    tpTotal (7 / 10) 0 [out] 0 ≤ tpTotal (1 / 2) 0 [out] 0 := by
  obtain ⟨out, _, h⟩ := rankedOf_file sampleTables _ (chunksOf_isBatching 3) 10 20
  exact ⟨out, sampleTables_ok, h, C81_tp_partial sampleTables_ok h (by norm_num) (by norm_num) (le_refl _) 0 [out] (by simp)⟩

/-! ## Confusion matrix -/

theorem isin_mono {x : Int × Int} {a b : List (Int × Int)} (h : ∀ y ∈ a, y ∈ b) (hx : isin x a = true) : isin x b = true := by
  unfold isin at *
  rw [decide_eq_true_eq] at *
  obtain ⟨y, hy, he⟩ := List.mem_map.1 hx
  exact List.mem_map.2 ⟨y, h y hy, he⟩

theorem thresholded_mono (rows : List Row) {t t' s s' : Rat} (htt : t ≤ t') (hs : s ≤ s') (r : Row)
    (h : thresholded rows t' s' r = true) : thresholded rows t s r = true := by
  unfold thresholded maskScore at *
  simp only [Bool.and_eq_true, decide_eq_true_eq, ge_iff_le] at *
  exact ⟨⟨h.1.1, h.1.2.1, le_trans htt h.1.2.2⟩, h.2.1, le_trans hs h.2.2⟩

theorem sum_map_mono {α : Type} {f g : α → Nat} (l : List α) (h : ∀ x ∈ l, f x ≤ g x) : (l.map f).sum ≤ (l.map g).sum := by
  induction l with
  | nil => exact le_refl _
  | cons a l ih =>
    rw [List.map_cons, List.map_cons, List.sum_cons, List.sum_cons]
    have h1 := h a (by simp)
    have h2 := ih (fun x hx => h x (by simp [hx]))
    omega

/-- **C81 (confusion matrix).** Raising either threshold never raises a cell of the confusion matrix and never lowers
the number of unmatched ground truths of a label; raising the IoU threshold never lowers the number of unmatched
predictions. For all tables and all thresholds. -/
theorem C81_confusion_matrix (tables : List (List Row)) {t t' s s' : Rat} (htt : t ≤ t') (hs : s ≤ s') (g p l : Int) :
    cmTotal tables t' s' g p ≤ cmTotal tables t s g p ∧
    unmatchedGtTotal tables t s l ≤ unmatchedGtTotal tables t' s' l ∧
    unmatchedPdTotal tables t s l ≤ unmatchedPdTotal tables t' s l := by
  have hsub : ∀ (rows : List Row) (s' : Rat) (_ : s ≤ s') (f : Row → Int × Int),
      ∀ y ∈ unique ((rows.filter (thresholded rows t' s')).map f), y ∈ unique ((rows.filter (thresholded rows t s)).map f) := by
    intro rows s' hs f y hy
    rw [mem_unique] at hy ⊢
    obtain ⟨r, hr, rfl⟩ := List.mem_map.1 hy
    rw [List.mem_filter] at hr
    exact List.mem_map.2 ⟨r, List.mem_filter.2 ⟨hr.1, thresholded_mono rows htt hs r hr.2⟩, rfl⟩
  refine ⟨?_, ?_, ?_⟩
  · apply sum_map_mono
    intro rows _
    rw [cmCell_eq, cmCell_eq]
    apply dedup_length_mono
    intro x hx
    obtain ⟨r, hr, rfl⟩ := List.mem_map.1 hx
    rw [List.mem_filter, List.mem_filter] at hr
    exact List.mem_map.2 ⟨r, List.mem_filter.2 ⟨List.mem_filter.2 ⟨hr.1.1, thresholded_mono rows htt hs r hr.1.2⟩, hr.2⟩, rfl⟩
  · apply sum_map_mono
    intro rows _
    unfold unmatchedGt
    rw [unique_filter, unique_filter]
    apply dedup_length_mono
    intro x hx
    obtain ⟨r, hr, rfl⟩ := List.mem_map.1 hx
    rw [List.mem_filter, List.mem_filter] at hr
    refine List.mem_map.2 ⟨r, List.mem_filter.2 ⟨List.mem_filter.2 ⟨hr.1.1, ?_⟩, hr.2⟩, rfl⟩
    have h1 := hr.1.2
    unfold pairFn at h1 ⊢
    simp only [Bool.and_eq_true, Bool.not_eq_true', decide_eq_true_eq] at h1 ⊢
    refine ⟨?_, h1.2⟩
    rw [Bool.eq_false_iff] at h1 ⊢
    exact fun h2 => h1.1 (isin_mono (hsub rows s' hs _) h2)
  · apply sum_map_mono
    intro rows _
    unfold unmatchedPd
    rw [unique_filter, unique_filter]
    apply dedup_length_mono
    intro x hx
    obtain ⟨r, hr, rfl⟩ := List.mem_map.1 hx
    rw [List.mem_filter, List.mem_filter] at hr
    refine List.mem_map.2 ⟨r, List.mem_filter.2 ⟨List.mem_filter.2 ⟨hr.1.1, ?_⟩, hr.2⟩, rfl⟩
    have h1 := hr.1.2
    unfold pairFp at h1 ⊢
    simp only [Bool.and_eq_true, Bool.not_eq_true', decide_eq_true_eq] at h1 ⊢
    refine ⟨⟨?_, h1.1.2⟩, h1.2⟩
    rw [Bool.eq_false_iff] at h1 ⊢
    exact fun h2 => h1.1.1 (isin_mono (hsub rows s (le_refl s) _) h2)

end Verif.Detection
