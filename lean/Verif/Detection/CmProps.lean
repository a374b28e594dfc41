import Verif.Detection.PairsProps

/-! # C32: the detection confusion matrix conserves annotations -/

namespace Verif.Detection

open Verif.Classification (unique)

/-! ## Counting distinct values -/

/-- Number of distinct values of `f` on a list. -/
def distinct {α β : Type} [DecidableEq β] (f : α → β) (l : List α) : Nat := (l.map f).dedup.length

theorem distinct_congr {α β γ : Type} [DecidableEq β] [DecidableEq γ] {f : α → β} {g : α → γ} {l : List α}
    (h : ∀ x ∈ l, ∀ y ∈ l, f x = f y ↔ g x = g y) : distinct f l = distinct g l := by
  induction l with
  | nil => rfl
  | cons a l ih =>
    have ih' := ih (fun x hx y hy => h x (by simp [hx]) y (by simp [hy]))
    unfold distinct at *
    rw [List.map_cons, List.map_cons]
    have hmem : f a ∈ l.map f ↔ g a ∈ l.map g := by
      rw [List.mem_map, List.mem_map]
      constructor
      · rintro ⟨x, hx, he⟩; exact ⟨x, hx, (h x (by simp [hx]) a (by simp)).1 he⟩
      · rintro ⟨x, hx, he⟩; exact ⟨x, hx, (h x (by simp [hx]) a (by simp)).2 he⟩
    by_cases hm : f a ∈ l.map f
    · rw [List.dedup_cons_of_mem hm, List.dedup_cons_of_mem (hmem.1 hm), ih']
    · rw [List.dedup_cons_of_notMem hm, List.dedup_cons_of_notMem (fun h => hm (hmem.2 h)), List.length_cons, List.length_cons, ih']

theorem distinct_append {α β : Type} [DecidableEq β] {f : α → β} {a b : List α} (h : ∀ x ∈ a, ∀ y ∈ b, f x ≠ f y) :
    distinct f (a ++ b) = distinct f a + distinct f b := by
  unfold distinct
  rw [List.map_append]
  apply dedup_append_disjoint
  intro x hx hx'
  obtain ⟨y, hy, rfl⟩ := List.mem_map.1 hx
  obtain ⟨z, hz, he⟩ := List.mem_map.1 hx'
  exact h y hy z hz he.symm

theorem distinct_perm {α β : Type} [DecidableEq β] {f : α → β} {a b : List α} (h : ∀ v, v ∈ a.map f ↔ v ∈ b.map f) :
    distinct f a = distinct f b := by
  unfold distinct
  apply List.Perm.length_eq
  rw [List.perm_ext_iff_of_nodup (List.nodup_dedup _) (List.nodup_dedup _)]
  intro v
  rw [List.mem_dedup, List.mem_dedup]
  exact h v

/-- Splitting by a condition that only depends on the counted value. -/
theorem distinct_split {α β : Type} [DecidableEq β] {f : α → β} (l : List α) (p : α → Bool)
    (h : ∀ x ∈ l, ∀ y ∈ l, f x = f y → p x = p y) :
    distinct f l = distinct f (l.filter p) + distinct f (l.filter (fun x => !p x)) := by
  rw [← distinct_append]
  · apply distinct_perm
    intro v
    simp only [List.mem_map, List.mem_append, List.mem_filter]
    constructor
    · rintro ⟨x, hx, rfl⟩
      refine ⟨x, ?_, rfl⟩
      cases hp : p x
      · right; exact ⟨hx, by simp⟩
      · left; exact ⟨hx, rfl⟩
    · rintro ⟨x, (hx | hx), rfl⟩
      · exact ⟨x, hx.1, rfl⟩
      · exact ⟨x, hx.1, rfl⟩
  · intro x hx y hy he
    rw [List.mem_filter] at hx hy
    have := h x hx.1 y hy.1 he
    rw [hx.2] at this
    rw [← this] at hy
    simp at hy

/-- Counting among the distinct keys that satisfy a condition. -/
theorem unique_filter {α β : Type} [DecidableEq β] (f : α → β) (l : List α) (q : β → Bool) :
    ((unique (l.map f)).filter q).length = distinct f (l.filter (fun x => q (f x))) := by
  unfold unique distinct
  apply List.Perm.length_eq
  rw [List.perm_ext_iff_of_nodup ((List.nodup_dedup _).filter _) (List.nodup_dedup _)]
  intro v
  simp only [List.mem_filter, List.mem_dedup, List.mem_map]
  constructor
  · rintro ⟨⟨x, hx, rfl⟩, hq⟩; exact ⟨x, ⟨hx, hq⟩, rfl⟩
  · rintro ⟨x, ⟨hx, hq⟩, rfl⟩; exact ⟨⟨x, hx, rfl⟩, hq⟩

/-- Summing over the values of a label that depends on the counted key. -/
theorem distinct_sum {α β : Type} [DecidableEq β] {f : α → β} (l : List α) (h : α → Int) (n : Nat)
    (hf : ∀ x ∈ l, ∀ y ∈ l, f x = f y → h x = h y) (h0 : ∀ x ∈ l, 0 ≤ h x) :
    ((List.range n).map (fun i : Nat => distinct f (l.filter (fun x => decide (h x = (i : Int)))))).sum
      = distinct f (l.filter (fun x => decide (h x < (n : Int)))) := by
  induction n with
  | zero =>
    rw [List.range_zero, List.map_nil, List.sum_nil]
    have : l.filter (fun x => decide (h x < ((0 : Nat) : Int))) = [] := by
      rw [List.filter_eq_nil_iff]
      intro x hx
      have := h0 x hx
      simp
      omega
    rw [this]
    rfl
  | succ n ih =>
    rw [List.range_succ, List.map_append, List.sum_append, ih, List.map_singleton, List.sum_singleton]
    rw [distinct_split (l.filter (fun x => decide (h x < ((n + 1 : Nat) : Int)))) (fun x => decide (h x < (n : Int)))]
    · congr 1
      · rw [List.filter_filter]
        congr 1
        apply List.filter_congr
        intro x _
        rw [Bool.eq_iff_iff]
        simp
        omega
      · rw [List.filter_filter]
        congr 1
        apply List.filter_congr
        intro x _
        rw [Bool.eq_iff_iff]
        simp
        omega
    · intro x hx y hy he
      have := hf x (List.mem_filter.1 hx).1 y (List.mem_filter.1 hy).1 he
      simp only [this]

/-! ## Well-formed detailed tables -/

/-- What the loader guarantees when every prediction has one label: ids fit, an id belongs to one datum
and one label, a prediction has one score, a pair has one IoU. -/
structure PairsOk (rows : List Row) : Prop where
  ids : ∀ r ∈ rows, RowIds r
  gts : ∀ x ∈ rows, ∀ y ∈ rows, 0 ≤ x.gt → x.gt = y.gt → x.datum = y.datum ∧ x.gl = y.gl
  pds : ∀ x ∈ rows, ∀ y ∈ rows, 0 ≤ x.pd → x.pd = y.pd → x.datum = y.datum ∧ x.pl = y.pl ∧ x.score = y.score
  ious : ∀ x ∈ rows, ∀ y ∈ rows, 0 ≤ x.gt → 0 ≤ x.pd → x.gt = y.gt → x.pd = y.pd → x.iou = y.iou

/-- Which rows are matched under the thresholds. -/
theorem thresholded_ids {rows : List Row} (hok : PairsOk rows) {t s : Rat} {r : Row} (hr : r ∈ rows)
    (h : thresholded rows t s r = true) : (r.gt, r.pd) ∈ keptPairs rows ∧ 0 ≤ r.gt ∧ 0 ≤ r.pd ∧ maskScore s r = true := by
  unfold thresholded at h
  rw [Bool.and_eq_true, Bool.and_eq_true] at h
  have hm := (C30_matched hok.ids hr).1 h.1.1
  have hk : (r.gt, r.pd) ∈ keptPairs rows := (mem_keptPairs _ _ _).2 hm
  obtain ⟨h1, h2⟩ := keptPairs_ok hok.ids _ hk
  exact ⟨hk, h1.1, h2.1, h.2⟩

theorem class_thresholded (rows : List Row) (t s : Rat) :
    (fun r => pairTp rows t s r || pairMisclf rows t s r) = thresholded rows t s := by
  funext r
  unfold pairTp pairMisclf
  cases thresholded rows t s r <;> cases gtPdMatch r <;> rfl

theorem subset_ok {rows : List Row} (hok : PairsOk rows) (t s : Rat) :
    (∀ y ∈ unique ((rows.filter (thresholded rows t s)).map (fun x => (x.datum, x.gt))), IdOk y.1 ∧ IdOk y.2) ∧
    (∀ y ∈ unique ((rows.filter (thresholded rows t s)).map (fun x => (x.datum, x.pd))), IdOk y.1 ∧ IdOk y.2) := by
  unfold unique
  constructor
  · intro y hy
    rw [List.mem_dedup] at hy
    obtain ⟨r, hr, rfl⟩ := List.mem_map.1 hy
    rw [List.mem_filter] at hr
    obtain ⟨_, h1, h2, _⟩ := thresholded_ids hok hr.1 hr.2
    obtain ⟨i1, i2, i3⟩ := hok.ids r hr.1
    refine ⟨i3, ?_⟩
    rcases i1 with h | h
    · dsimp only; rw [h] at h1; omega
    · exact h
  · intro y hy
    rw [List.mem_dedup] at hy
    obtain ⟨r, hr, rfl⟩ := List.mem_map.1 hy
    rw [List.mem_filter] at hr
    obtain ⟨_, h1, h2, _⟩ := thresholded_ids hok hr.1 hr.2
    obtain ⟨i1, i2, i3⟩ := hok.ids r hr.1
    refine ⟨i3, ?_⟩
    rcases i2 with h | h
    · dsimp only; rw [h] at h2; omega
    · exact h

/-- A ground truth is unmatched iff no thresholded row has it. -/
theorem pairFn_iff {rows : List Row} (hok : PairsOk rows) (t s : Rat) {r : Row} (hr : r ∈ rows) :
    pairFn rows t s r = true ↔ 0 ≤ r.gt ∧ ∀ x ∈ rows, thresholded rows t s x = true → x.gt ≠ r.gt := by
  obtain ⟨i1, i2, i3⟩ := hok.ids r hr
  unfold pairFn
  rw [Bool.and_eq_true, decide_eq_true_eq, Bool.not_eq_true', ← Bool.not_eq_true,
    C31_isin _ _ ⟨Or.inr i3, i1⟩ (subset_ok hok t s).1]
  unfold unique
  rw [List.mem_dedup, List.mem_map]
  constructor
  · rintro ⟨h1, h2⟩
    refine ⟨h2, ?_⟩
    intro x hx hxt he
    have := hok.gts x hx r hr (by omega) he
    exact h1 ⟨x, List.mem_filter.2 ⟨hx, hxt⟩, by rw [this.1, he]⟩
  · rintro ⟨h1, h2⟩
    refine ⟨?_, h1⟩
    rintro ⟨x, hx, he⟩
    rw [List.mem_filter] at hx
    exact h2 x hx.1 hx.2 (Prod.mk.inj he).2

/-- A prediction is unmatched iff it passes the score threshold and no thresholded row has it. -/
theorem pairFp_iff {rows : List Row} (hok : PairsOk rows) (t s : Rat) {r : Row} (hr : r ∈ rows) :
    pairFp rows t s r = true ↔ 0 ≤ r.pd ∧ maskScore s r = true ∧ ∀ x ∈ rows, thresholded rows t s x = true → x.pd ≠ r.pd := by
  obtain ⟨i1, i2, i3⟩ := hok.ids r hr
  unfold pairFp
  rw [Bool.and_eq_true, Bool.and_eq_true, decide_eq_true_eq, Bool.not_eq_true', ← Bool.not_eq_true,
    C31_isin _ _ ⟨Or.inr i3, i2⟩ (subset_ok hok t s).2]
  unfold unique
  rw [List.mem_dedup, List.mem_map]
  constructor
  · rintro ⟨⟨h1, h2⟩, h3⟩
    refine ⟨h2, h3, ?_⟩
    intro x hx hxt he
    have := hok.pds x hx r hr (by omega) he
    exact h1 ⟨x, List.mem_filter.2 ⟨hx, hxt⟩, by rw [this.1, he]⟩
  · rintro ⟨h1, h3, h2⟩
    refine ⟨⟨?_, h1⟩, h3⟩
    rintro ⟨x, hx, he⟩
    rw [List.mem_filter] at hx
    exact h2 x hx.1 hx.2 (Prod.mk.inj he).2

/-- Row labels below the number of labels. -/
def LabelsBelow (n : Nat) (rows : List Row) : Prop :=
  ∀ r ∈ rows, (0 ≤ r.gt → 0 ≤ r.gl ∧ r.gl < n) ∧ (0 ≤ r.pd → 0 ≤ r.pl ∧ r.pl < n)

instance (n : Nat) (rows : List Row) : Decidable (LabelsBelow n rows) := by unfold LabelsBelow; infer_instance

theorem cmCell_eq (rows : List Row) (t s : Rat) (g p : Int) : cmCell rows t s g p
    = distinct (fun r : Row => [r.datum, r.gt, r.pd, r.gl, r.pl])
      ((rows.filter (thresholded rows t s)).filter (fun r => decide (r.gl = g) && decide (r.pl = p))) := by
  unfold cmCell
  rw [class_thresholded, unique_filter]
  congr 1
  apply List.filter_congr
  intro r _
  simp

/-- Keys of thresholded rows are determined by the ground truth and by the prediction. -/
theorem thresholded_key {rows : List Row} (hok : PairsOk rows) (t s : Rat) :
    (∀ x ∈ rows.filter (thresholded rows t s), ∀ y ∈ rows.filter (thresholded rows t s),
      [x.datum, x.gt, x.pd, x.gl, x.pl] = [y.datum, y.gt, y.pd, y.gl, y.pl] ↔ x.gt = y.gt) ∧
    (∀ x ∈ rows.filter (thresholded rows t s), ∀ y ∈ rows.filter (thresholded rows t s),
      [x.datum, x.gt, x.pd, x.gl, x.pl] = [y.datum, y.gt, y.pd, y.gl, y.pl] ↔ x.pd = y.pd) := by
  have key : ∀ x ∈ rows.filter (thresholded rows t s), ∀ y ∈ rows.filter (thresholded rows t s),
      (x.gt = y.gt ∨ x.pd = y.pd) → [x.datum, x.gt, x.pd, x.gl, x.pl] = [y.datum, y.gt, y.pd, y.gl, y.pl] := by
    intro x hx y hy h
    rw [List.mem_filter] at hx hy
    obtain ⟨k1, g1, p1, _⟩ := thresholded_ids hok hx.1 hx.2
    obtain ⟨k2, g2, p2, _⟩ := thresholded_ids hok hy.1 hy.2
    obtain ⟨e1, e2⟩ := C30_one_to_one rows k1 k2 h
    obtain ⟨a1, a2⟩ := hok.gts x hx.1 y hy.1 g1 e1
    obtain ⟨b1, b2, _⟩ := hok.pds x hx.1 y hy.1 p1 e2
    rw [a1, e1, e2, a2, b2]
  constructor
  · intro x hx y hy
    refine ⟨?_, fun h => key x hx y hy (Or.inl h)⟩
    intro h
    simp only [List.cons.injEq] at h
    exact h.2.1
  · intro x hx y hy
    refine ⟨?_, fun h => key x hx y hy (Or.inr h)⟩
    intro h
    simp only [List.cons.injEq] at h
    exact h.2.2.1

/-- Ground truths of a label in a table: matched or missed, exactly once. -/
theorem table_groundtruths {rows : List Row} (hok : PairsOk rows) {n : Nat} (hl : LabelsBelow n rows) (t s : Rat) (l : Int) :
    ((List.range n).map (fun p : Nat => cmCell rows t s l (p : Nat))).sum + unmatchedGt rows t s l
      = distinct Row.gt (rows.filter (fun r => decide (0 ≤ r.gt ∧ r.gl = l))) := by
  have hk := (thresholded_key hok t s).1
  have hsum : ((List.range n).map (fun p : Nat => cmCell rows t s l (p : Nat))).sum
      = distinct Row.gt ((rows.filter (thresholded rows t s)).filter (fun r => decide (r.gl = l))) := by
    have h1 := distinct_sum (f := fun r : Row => [r.datum, r.gt, r.pd, r.gl, r.pl])
      ((rows.filter (thresholded rows t s)).filter (fun r => decide (r.gl = l))) Row.pl n
      (by intro x _ y _ h; simp only [List.cons.injEq] at h; exact h.2.2.2.2.1)
      (by
        intro x hx
        have hx' := List.mem_filter.1 (List.mem_filter.1 hx).1
        obtain ⟨_, _, h2, _⟩ := thresholded_ids hok hx'.1 hx'.2
        exact ((hl x hx'.1).2 h2).1)
    have h2 : ((rows.filter (thresholded rows t s)).filter (fun r => decide (r.gl = l))).filter (fun x => decide (x.pl < (n : Int)))
        = (rows.filter (thresholded rows t s)).filter (fun r => decide (r.gl = l)) := by
      rw [List.filter_eq_self]
      intro x hx
      have hx' := List.mem_filter.1 (List.mem_filter.1 hx).1
      obtain ⟨_, _, h2, _⟩ := thresholded_ids hok hx'.1 hx'.2
      rw [decide_eq_true_eq]
      exact ((hl x hx'.1).2 h2).2
    rw [h2] at h1
    rw [← distinct_congr (f := fun r : Row => [r.datum, r.gt, r.pd, r.gl, r.pl]), ← h1]
    · congr 1
      apply List.map_congr_left
      intro p _
      rw [cmCell_eq, List.filter_filter, List.filter_filter]
      congr 1
      rw [List.filter_filter]
      apply List.filter_congr
      intro x _
      cases decide (x.gl = l) <;> cases decide (x.pl = (p : Int)) <;> cases thresholded rows t s x <;> rfl
    · intro x hx y hy
      exact hk x (List.mem_filter.1 hx).1 y (List.mem_filter.1 hy).1
  have hun : unmatchedGt rows t s l = distinct Row.gt ((rows.filter (pairFn rows t s)).filter (fun r => decide (r.gl = l))) := by
    unfold unmatchedGt
    rw [unique_filter]
    have : (fun x : Row => decide ([x.datum, x.gt, x.gl][2]? = some l)) = fun r => decide (r.gl = l) := by
      funext x; simp
    rw [this]
    apply distinct_congr
    intro x hx y hy
    have hx' := List.mem_filter.1 (List.mem_filter.1 hx).1
    have hy' := List.mem_filter.1 (List.mem_filter.1 hy).1
    constructor
    · intro h; simp only [List.cons.injEq] at h; exact h.2.1
    · intro h
      obtain ⟨h1, h2⟩ := hok.gts x hx'.1 y hy'.1 ((pairFn_iff hok t s hx'.1).1 hx'.2).1 h
      rw [h1, h, h2]
  rw [hsum, hun]
  rw [distinct_split (rows.filter (fun r => decide (0 ≤ r.gt ∧ r.gl = l))) (fun r => !pairFn rows t s r)]
  · congr 1
    · apply distinct_perm
      intro v
      simp only [List.mem_map, List.mem_filter, decide_eq_true_eq, Bool.not_eq_true']
      constructor
      · rintro ⟨x, ⟨⟨hx, hxt⟩, hxl⟩, rfl⟩
        obtain ⟨_, h1, _, _⟩ := thresholded_ids hok hx hxt
        refine ⟨x, ⟨⟨hx, h1, hxl⟩, ?_⟩, rfl⟩
        rw [← Bool.not_eq_true, pairFn_iff hok t s hx]
        rintro ⟨_, h⟩
        exact h x hx hxt rfl
      · rintro ⟨x, ⟨⟨hx, h0, hxl⟩, hf⟩, rfl⟩
        rw [← Bool.not_eq_true, pairFn_iff hok t s hx] at hf
        have : ∃ y ∈ rows, thresholded rows t s y = true ∧ y.gt = x.gt := by
          by_contra hcon
          exact hf ⟨h0, fun y hy hyt he => hcon ⟨y, hy, hyt, he⟩⟩
        obtain ⟨y, hy, hyt, he⟩ := this
        have := hok.gts y hy x hx (by omega) he
        exact ⟨y, ⟨⟨hy, hyt⟩, by rw [this.2, hxl]⟩, he⟩
    · apply distinct_perm
      intro v
      simp only [List.mem_map, List.mem_filter, decide_eq_true_eq, Bool.not_not]
      constructor
      · rintro ⟨x, ⟨⟨hx, hxf⟩, hxl⟩, rfl⟩
        exact ⟨x, ⟨⟨hx, ((pairFn_iff hok t s hx).1 hxf).1, hxl⟩, hxf⟩, rfl⟩
      · rintro ⟨x, ⟨⟨hx, h0, hxl⟩, hf⟩, rfl⟩
        exact ⟨x, ⟨⟨hx, hf⟩, hxl⟩, rfl⟩
  · intro x hx y hy he
    rw [List.mem_filter, decide_eq_true_eq] at hx hy
    have : pairFn rows t s x = pairFn rows t s y := by
      rw [Bool.eq_iff_iff, pairFn_iff hok t s hx.1, pairFn_iff hok t s hy.1, he]
    rw [this]

/-- Predictions of a label in a table: matched or unmatched, exactly once. -/
theorem table_predictions {rows : List Row} (hok : PairsOk rows) {n : Nat} (hl : LabelsBelow n rows) (t s : Rat) (l : Int) :
    ((List.range n).map (fun g : Nat => cmCell rows t s (g : Nat) l)).sum + unmatchedPd rows t s l
      = distinct Row.pd (rows.filter (fun r => decide (0 ≤ r.pd ∧ r.pl = l ∧ EPSILON < r.score ∧ s ≤ r.score))) := by
  have hk := (thresholded_key hok t s).2
  have hms : ∀ r : Row, maskScore s r = true ↔ EPSILON < r.score ∧ s ≤ r.score := by
    intro r
    unfold maskScore
    rw [Bool.and_eq_true, decide_eq_true_eq, decide_eq_true_eq]
  have hsum : ((List.range n).map (fun g : Nat => cmCell rows t s (g : Nat) l)).sum
      = distinct Row.pd ((rows.filter (thresholded rows t s)).filter (fun r => decide (r.pl = l))) := by
    have h1 := distinct_sum (f := fun r : Row => [r.datum, r.gt, r.pd, r.gl, r.pl])
      ((rows.filter (thresholded rows t s)).filter (fun r => decide (r.pl = l))) Row.gl n
      (by intro x _ y _ h; simp only [List.cons.injEq] at h; exact h.2.2.2.1)
      (by
        intro x hx
        have hx' := List.mem_filter.1 (List.mem_filter.1 hx).1
        obtain ⟨_, h2, _, _⟩ := thresholded_ids hok hx'.1 hx'.2
        exact ((hl x hx'.1).1 h2).1)
    have h2 : ((rows.filter (thresholded rows t s)).filter (fun r => decide (r.pl = l))).filter (fun x => decide (x.gl < (n : Int)))
        = (rows.filter (thresholded rows t s)).filter (fun r => decide (r.pl = l)) := by
      rw [List.filter_eq_self]
      intro x hx
      have hx' := List.mem_filter.1 (List.mem_filter.1 hx).1
      obtain ⟨_, h2, _, _⟩ := thresholded_ids hok hx'.1 hx'.2
      rw [decide_eq_true_eq]
      exact ((hl x hx'.1).1 h2).2
    rw [h2] at h1
    rw [← distinct_congr (f := fun r : Row => [r.datum, r.gt, r.pd, r.gl, r.pl]), ← h1]
    · congr 1
      apply List.map_congr_left
      intro p _
      rw [cmCell_eq, List.filter_filter, List.filter_filter]
      congr 1
      rw [List.filter_filter]
    · intro x hx y hy
      exact hk x (List.mem_filter.1 hx).1 y (List.mem_filter.1 hy).1
  have hun : unmatchedPd rows t s l = distinct Row.pd ((rows.filter (pairFp rows t s)).filter (fun r => decide (r.pl = l))) := by
    unfold unmatchedPd
    rw [unique_filter]
    have : (fun x : Row => decide ([x.datum, x.pd, x.pl][2]? = some l)) = fun r => decide (r.pl = l) := by
      funext x; simp
    rw [this]
    apply distinct_congr
    intro x hx y hy
    have hx' := List.mem_filter.1 (List.mem_filter.1 hx).1
    have hy' := List.mem_filter.1 (List.mem_filter.1 hy).1
    constructor
    · intro h; simp only [List.cons.injEq] at h; exact h.2.1
    · intro h
      obtain ⟨h1, h2, _⟩ := hok.pds x hx'.1 y hy'.1 ((pairFp_iff hok t s hx'.1).1 hx'.2).1 h
      rw [h1, h, h2]
  rw [hsum, hun]
  rw [distinct_split (rows.filter (fun r => decide (0 ≤ r.pd ∧ r.pl = l ∧ EPSILON < r.score ∧ s ≤ r.score))) (fun r => !pairFp rows t s r)]
  · congr 1
    · apply distinct_perm
      intro v
      simp only [List.mem_map, List.mem_filter, decide_eq_true_eq, Bool.not_eq_true']
      constructor
      · rintro ⟨x, ⟨⟨hx, hxt⟩, hxl⟩, rfl⟩
        obtain ⟨_, _, h1, h2⟩ := thresholded_ids hok hx hxt
        refine ⟨x, ⟨⟨hx, h1, hxl, (hms x).1 h2⟩, ?_⟩, rfl⟩
        rw [← Bool.not_eq_true, pairFp_iff hok t s hx]
        rintro ⟨_, _, h⟩
        exact h x hx hxt rfl
      · rintro ⟨x, ⟨⟨hx, h0, hxl, hsc⟩, hf⟩, rfl⟩
        rw [← Bool.not_eq_true, pairFp_iff hok t s hx] at hf
        have : ∃ y ∈ rows, thresholded rows t s y = true ∧ y.pd = x.pd := by
          by_contra hcon
          exact hf ⟨h0, (hms x).2 hsc, fun y hy hyt he => hcon ⟨y, hy, hyt, he⟩⟩
        obtain ⟨y, hy, hyt, he⟩ := this
        have := hok.pds y hy x hx (by omega) he
        exact ⟨y, ⟨⟨hy, hyt⟩, by rw [this.2.1, hxl]⟩, he⟩
    · apply distinct_perm
      intro v
      simp only [List.mem_map, List.mem_filter, decide_eq_true_eq, Bool.not_not]
      constructor
      · rintro ⟨x, ⟨⟨hx, hxf⟩, hxl⟩, rfl⟩
        have := (pairFp_iff hok t s hx).1 hxf
        exact ⟨x, ⟨⟨hx, this.1, hxl, (hms x).1 this.2.1⟩, hxf⟩, rfl⟩
      · rintro ⟨x, ⟨⟨hx, h0, hxl, _⟩, hf⟩, rfl⟩
        exact ⟨x, ⟨⟨hx, hf⟩, hxl⟩, rfl⟩
  · intro x hx y hy he
    rw [List.mem_filter, decide_eq_true_eq] at hx hy
    have hsc := (hok.pds x hx.1 y hy.1 hx.2.1 he).2.2
    have : pairFp rows t s x = pairFp rows t s y := by
      rw [Bool.eq_iff_iff, pairFp_iff hok t s hx.1, pairFp_iff hok t s hy.1, he, hms, hms, hsc]
    rw [this]

/-! ## The whole cache -/

/-- Distinct ids over aligned tables. -/
theorem distinct_tables {tables : List (List Row)} (ha : Aligned tables) (f : Row → Int) (p : Row → Bool)
    (hf : ∀ x ∈ tables.flatten, ∀ y ∈ tables.flatten, p x = true → p y = true → f x = f y → x.datum = y.datum) :
    (tables.map (fun tbl => distinct f (tbl.filter p))).sum = distinct f (tables.flatten.filter p) := by
  induction tables with
  | nil => rfl
  | cons t ts ih =>
    unfold Aligned at ha
    rw [List.pairwise_cons] at ha
    rw [List.map_cons, List.sum_cons, ih ha.2 (fun x hx y hy => hf x (by rw [List.flatten_cons, List.mem_append]; exact Or.inr hx) y
      (by rw [List.flatten_cons, List.mem_append]; exact Or.inr hy)), List.flatten_cons, List.filter_append, distinct_append]
    intro x hx y hy he
    rw [List.mem_filter] at hx hy
    obtain ⟨tb, htb, hyt⟩ := List.mem_flatten.1 hy.1
    exact ha.1 tb htb x hx.1 y hyt (hf x (by rw [List.flatten_cons, List.mem_append]; exact Or.inl hx.1) y
      (by rw [List.flatten_cons, List.mem_append]; exact Or.inr hy.1) hx.2 hy.2 he)

/-- The sum over the columns of the totals. -/
theorem sum_swap {α : Type} (tables : List α) (n : Nat) (f : α → Nat → Nat) :
    ((List.range n).map (fun p => (tables.map (fun r => f r p)).sum)).sum
      = (tables.map (fun r => ((List.range n).map (fun p => f r p)).sum)).sum := by
  induction tables with
  | nil => simp
  | cons a l ih =>
    simp only [List.map_cons, List.sum_cons]
    rw [List.sum_map_add, ih]

theorem PairsOk.sub {rows all : List Row} (h : PairsOk all) (hs : ∀ r ∈ rows, r ∈ all) : PairsOk rows where
  ids r hr := h.ids r (hs r hr)
  gts x hx y hy := h.gts x (hs x hx) y (hs y hy)
  pds x hx y hy := h.pds x (hs x hx) y (hs y hy)
  ious x hx y hy := h.ious x (hs x hx) y (hs y hy)

/-- **C32 (ground truths).** For predictions with one label and all thresholds: the row of a label in the
confusion matrix and its unmatched ground truths add up to the ground truths of that label. -/
theorem C32_groundtruths {tables : List (List Row)} (ha : Aligned tables) (hok : PairsOk tables.flatten) {n : Nat}
    (hl : LabelsBelow n tables.flatten) (t s : Rat) (l : Int) :
    ((List.range n).map (fun p : Nat => cmTotal tables t s l (p : Nat))).sum + unmatchedGtTotal tables t s l
      = distinct Row.gt (tables.flatten.filter (fun r => decide (0 ≤ r.gt ∧ r.gl = l))) := by
  rw [← distinct_tables ha]
  · unfold cmTotal unmatchedGtTotal
    rw [sum_swap tables n (fun r p => cmCell r t s l (p : Nat)), ← List.sum_map_add]
    congr 1
    apply List.map_congr_left
    intro tbl htbl
    have hs : ∀ r ∈ tbl, r ∈ tables.flatten := fun r hr => List.mem_flatten.2 ⟨tbl, htbl, hr⟩
    exact table_groundtruths (hok.sub hs) (fun r hr => hl r (hs r hr)) t s l
  · intro x hx y hy h1 _ he
    rw [decide_eq_true_eq] at h1
    exact (hok.gts x hx y hy h1.1 he).1

/-- **C32 (predictions).** For predictions with one label and all thresholds: the column of a label in the
confusion matrix and its unmatched predictions add up to the predictions of that label that pass the score
threshold (and have a score that is not zero). -/
theorem C32_predictions {tables : List (List Row)} (ha : Aligned tables) (hok : PairsOk tables.flatten) {n : Nat}
    (hl : LabelsBelow n tables.flatten) (t s : Rat) (l : Int) :
    ((List.range n).map (fun g : Nat => cmTotal tables t s (g : Nat) l)).sum + unmatchedPdTotal tables t s l
      = distinct Row.pd (tables.flatten.filter (fun r => decide (0 ≤ r.pd ∧ r.pl = l ∧ EPSILON < r.score ∧ s ≤ r.score))) := by
  rw [← distinct_tables ha]
  · unfold cmTotal unmatchedPdTotal
    rw [sum_swap tables n (fun r g => cmCell r t s (g : Nat) l), ← List.sum_map_add]
    congr 1
    apply List.map_congr_left
    intro tbl htbl
    have hs : ∀ r ∈ tbl, r ∈ tables.flatten := fun r hr => List.mem_flatten.2 ⟨tbl, htbl, hr⟩
    exact table_predictions (hok.sub hs) (fun r hr => hl r (hs r hr)) t s l
  · intro x hx y hy h1 _ he
    rw [decide_eq_true_eq] at h1
    exact (hok.pds x hx y hy h1.1 he).1

/-- **C32 (meaning of a match).** A counted pair was chosen by the greedy matching and passes both
thresholds. -/
theorem C32_match {rows : List Row} (hok : PairsOk rows) (t s : Rat) {r : Row} (hr : r ∈ rows) :
    (pairTp rows t s r || pairMisclf rows t s r) = true ↔
      (∃ i : Nat, ∃ h : i < rows.length, (greedy [] [] rows)[i]? = some true ∧ rows[i].gt = r.gt ∧ rows[i].pd = r.pd) ∧
      (EPSILON < r.iou ∧ t ≤ r.iou) ∧ (EPSILON < r.score ∧ s ≤ r.score) := by
  have : (pairTp rows t s r || pairMisclf rows t s r) = thresholded rows t s r := congrFun (class_thresholded rows t s) r
  rw [this]
  unfold thresholded maskScore
  rw [Bool.and_eq_true, Bool.and_eq_true, C30_matched hok.ids hr, Bool.and_eq_true, Bool.and_eq_true, decide_eq_true_eq,
    decide_eq_true_eq, decide_eq_true_eq, decide_eq_true_eq]
  tauto

/-- **C32 (violation for several labels).** A prediction with two labels over the score threshold makes one
ground truth count twice: row sum 2 for 1 ground truth. -/
theorem C32_multilabel_violation : ∃ rows : List Row, LabelsBelow 2 rows ∧
    ((List.range 2).map (fun p : Nat => cmCell rows (1 / 2) (1 / 4) 0 (p : Nat))).sum = 2 ∧
    distinct Row.gt (rows.filter (fun r => decide (0 ≤ r.gt ∧ r.gl = 0))) = 1 :=
  ⟨[⟨0, 0, 0, 0, 0, 9 / 10, 6 / 10⟩, ⟨0, 0, 0, 0, 1, 9 / 10, 4 / 10⟩], by decide +kernel⟩

/-- **C32 (violation for scores of zero).** A prediction with score 0 passes the score threshold 0 and is counted nowhere. -/
theorem C32_zero_violation : ∃ rows : List Row, PairsOk rows ∧ LabelsBelow 1 rows ∧ cmCell rows (1 / 2) 0 0 0 + unmatchedPd rows (1 / 2) 0 0 = 0 ∧
    distinct Row.pd (rows.filter (fun r => decide (0 ≤ r.pd ∧ r.pl = 0 ∧ 0 ≤ r.score))) = 1 :=
  ⟨[⟨0, -1, 0, -1, 0, 0, 0⟩], ⟨by decide +kernel, by decide +kernel, by decide +kernel, by decide +kernel⟩, by decide +kernel⟩

/-- A table that meets the hypotheses. -/
example : PairsOk sampleTables.flatten ∧ LabelsBelow 2 sampleTables.flatten ∧ Aligned sampleTables := by
  refine ⟨⟨by decide +kernel, by decide +kernel, by decide +kernel, by decide +kernel⟩, by decide +kernel, sampleTables_ok.aligned⟩

example : cmTotal sampleTables (1 / 2) (1 / 2) 0 0 = 2 ∧ unmatchedGtTotal sampleTables (1 / 2) (1 / 2) 1 = 1 := by decide +kernel

end Verif.Detection
