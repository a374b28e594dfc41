import Verif.Classification.Counts
import Verif.Classification.LoaderProps
import Mathlib.Data.List.Perm.Basic
import Mathlib.Data.List.Dedup
import Mathlib.Tactic.Linarith
import Mathlib.Tactic.Positivity
import Mathlib.Tactic.NormNum
import Mathlib.Data.Rat.Cast.Order

/-! # Lemmas about classification counts -/

namespace Verif.Classification

/-! ## Tolerances -/

/-- Ids below 100000 are compared exactly. -/
theorem isclose_ids {a b : Int} (hb : 0 ≤ b) (hb' : b < 100000) :
    isclose a b = decide (a = b) := by
  unfold isclose
  by_cases h : a = b
  · subst h
    have : (0 : Rat) ≤ |(a : Rat)| := abs_nonneg _
    have h2 : |(a : Rat) - a| ≤ 1 / 100000000 + 1 / 100000 * |(a : Rat)| := by
      rw [sub_self, abs_zero]; positivity
    simp only [h2, decide_true]
  · have h1 : (1 : Rat) ≤ |(a : Rat) - b| := by
      rw [← Int.cast_sub, ← Int.cast_abs]
      have : (1 : Int) ≤ |a - b| := Int.one_le_abs (sub_ne_zero.2 h)
      exact_mod_cast this
    have h2 : |(b : Rat)| ≤ 99999 := by
      rw [abs_of_nonneg (by exact_mod_cast hb)]
      have : b ≤ 99999 := by omega
      exact_mod_cast this
    have : ¬ (|(a : Rat) - b| ≤ 1 / 100000000 + 1 / 100000 * |(b : Rat)|) := by
      intro hc; linarith
    rw [decide_eq_false this, decide_eq_false h]

/-- `~np.isclose(score, 0)` is `|score| > 1e-8`. -/
theorem isclose_zero (s : Rat) : isclose s 0 = decide (|s| ≤ 1 / 100000000) := by
  simp [isclose]

/-! ## Counting distinct pairs -/

/-- Number of distinct `(datum, label)` pairs with label `l` among the rows selected by `m`. -/
def dc {β : Type} [DecidableEq β] (rows : List Row) (m : Row → Bool) (f : Row → β) (l : β) : Nat :=
  ((unique ((rows.filter m).map (fun r => (r.datum, f r)))).map Prod.snd).count l

theorem dc_eq {β : Type} [DecidableEq β] (rows : List Row) (m : Row → Bool) (f : Row → β) (l : β) :
    dc rows m f l = (((rows.filter (fun r => m r && decide (f r = l))).map Row.datum).dedup).length := by
  unfold dc unique
  generalize hA : (rows.filter m).map (fun r => (r.datum, f r)) = A
  have h1 : (A.dedup.map Prod.snd).count l = ((A.dedup).filter (fun p => decide (p.2 = l))).length := by
    rw [List.count, List.countP_map, List.countP_eq_length_filter]
    congr 1
  rw [h1]
  have h2 : (A.dedup.filter (fun p => decide (p.2 = l))).map Prod.fst
      |>.Perm (((rows.filter (fun r => m r && decide (f r = l))).map Row.datum).dedup) := by
    rw [List.perm_ext_iff_of_nodup]
    · intro d
      simp only [List.mem_map, List.mem_filter, List.mem_dedup, ← hA, decide_eq_true_eq,
        Bool.and_eq_true]
      constructor
      · rintro ⟨⟨d', l'⟩, ⟨⟨r, ⟨hr, hm⟩, he⟩, hl⟩, rfl⟩
        simp only [Prod.mk.injEq] at he
        exact ⟨r, ⟨hr, hm, by rw [he.2]; exact hl⟩, he.1⟩
      · rintro ⟨r, ⟨hr, hm, hl⟩, rfl⟩
        exact ⟨(r.datum, f r), ⟨⟨r, ⟨hr, hm⟩, rfl⟩, hl⟩, rfl⟩
    · refine List.Nodup.map_on ?_ ((List.nodup_dedup A).filter _)
      rintro ⟨a, b⟩ ha ⟨c, d⟩ hc h
      simp only [List.mem_filter, decide_eq_true_eq] at ha hc h
      rw [ha.2, hc.2, h]
    · exact List.nodup_dedup _
  rw [← h2.length_eq, List.length_map]

theorem dc_perm {β : Type} [DecidableEq β] {a b : List Row} (h : a.Perm b) (m : Row → Bool) (f : Row → β) (l : β) :
    dc a m f l = dc b m f l := by
  rw [dc_eq, dc_eq]
  exact (((h.filter _).map _).dedup).length_eq

theorem dc_append {β : Type} [DecidableEq β] {a b : List Row} (h : ∀ x ∈ a, ∀ y ∈ b, x.datum ≠ y.datum) (m : Row → Bool)
    (f : Row → β) (l : β) : dc (a ++ b) m f l = dc a m f l + dc b m f l := by
  rw [dc_eq, dc_eq, dc_eq, List.filter_append, List.map_append]
  rw [List.Disjoint.dedup_append, List.length_append]
  intro d h1 h2
  simp only [List.mem_map, List.mem_filter] at h1 h2
  obtain ⟨x, ⟨hx, _⟩, rfl⟩ := h1
  obtain ⟨y, ⟨hy, _⟩, he⟩ := h2
  exact h x hx y hy he.symm

theorem dc_block {β : Type} [DecidableEq β] {rows : List Row} {k : Int} (h : ∀ r ∈ rows, r.datum = k) (m : Row → Bool)
    (f : Row → β) (l : β) :
    dc rows m f l = if rows.any (fun r => m r && decide (f r = l)) then 1 else 0 := by
  rw [dc_eq]
  have : ∀ r ∈ rows.filter (fun r => m r && decide (f r = l)), r.datum = k := by
    intro r hr; exact h r (List.mem_filter.1 hr).1
  have hmap : (rows.filter (fun r => m r && decide (f r = l))).map Row.datum
      = List.replicate (rows.filter (fun r => m r && decide (f r = l))).length k := by
    rw [List.eq_replicate_iff]
    refine ⟨by simp, ?_⟩
    intro b hb
    obtain ⟨r, hr, rfl⟩ := List.mem_map.1 hb
    exact this r hr
  rw [hmap]
  by_cases hc : rows.any (fun r => m r && decide (f r = l)) = true
  · rw [if_pos hc]
    have hlen : (rows.filter (fun r => m r && decide (f r = l))).length ≠ 0 := by
      obtain ⟨r, hr, hm⟩ := List.any_eq_true.1 hc
      intro h0
      have : r ∈ rows.filter (fun r => m r && decide (f r = l)) := List.mem_filter.2 ⟨hr, hm⟩
      rw [List.length_eq_zero_iff.1 h0] at this
      exact absurd this (by simp)
    rw [List.replicate_dedup hlen]
    rfl
  · rw [if_neg hc]
    have : rows.filter (fun r => m r && decide (f r = l)) = [] := by
      rw [List.filter_eq_nil_iff]
      intro r hr hm
      exact hc (List.any_eq_true.2 ⟨r, hr, hm⟩)
    rw [this]; rfl

/-! ## The counts as a total function -/

/-- Counts of label id `l`. -/
def cnt (rows : List Row) (h : Bool) (t : Rat) (l : Int) : Counts :=
  ⟨rows.countP (fun r => tpMask t h r && decide (r.pd = l)),
   rows.countP (fun r => fpMask t h r && decide (r.pd = l)),
   dc rows (fnMask t h) Row.gt l, dc rows (tnMask t h) Row.pd l⟩

theorem cnt_nil (h : Bool) (t : Rat) (l : Int) : cnt [] h t l = Counts.zero := rfl

theorem cnt_perm {a b : List Row} (hp : a.Perm b) (h : Bool) (t : Rat) (l : Int) :
    cnt a h t l = cnt b h t l := by
  simp only [cnt, hp.countP_eq, dc_perm hp]

theorem cnt_append {a b : List Row} (hd : ∀ x ∈ a, ∀ y ∈ b, x.datum ≠ y.datum) (h : Bool) (t : Rat)
    (l : Int) : cnt (a ++ b) h t l = (cnt a h t l).add (cnt b h t l) := by
  simp only [cnt, Counts.add, List.countP_append, dc_append hd]

/-- Ids are valid indices into an array of length `n`. -/
def InRange (rows : List Row) (n : Nat) : Prop :=
  ∀ r ∈ rows, (0 ≤ r.gt ∧ r.gt < n) ∧ (0 ≤ r.pd ∧ r.pd < n)

theorem bincount_ok {xs : List Int} {n : Nat} (h : ∀ x ∈ xs, 0 ≤ x ∧ x < n) :
    bincount xs n = some ((List.range n).map (fun l : Nat => xs.count (l : Int))) := by
  unfold bincount
  rw [if_pos]
  rw [List.all_eq_true]
  intro x hx
  have := h x hx
  simp [this.1, this.2]

theorem count_map_filter (rows : List Row) (m : Row → Bool) (f : Row → Int) (l : Int) :
    ((rows.filter m).map f).count l = rows.countP (fun r => m r && decide (f r = l)) := by
  rw [List.count, List.countP_map, List.countP_filter]
  apply List.countP_congr
  intro r _
  simp [BEq.beq, and_comm]

theorem countsAt_eq {rows : List Row} {n : Nat} (hr : InRange rows n) (h : Bool) (t : Rat) :
    countsAt rows h n t = some ((List.range n).map (fun l : Nat => cnt rows h t (l : Int))) := by
  have e1 : ∀ m : Row → Bool, bincount ((rows.filter m).map Row.pd) n
      = some ((List.range n).map (fun l : Nat => ((rows.filter m).map Row.pd).count (l : Int))) := by
    intro m
    apply bincount_ok
    intro x hx
    obtain ⟨r, hr', rfl⟩ := List.mem_map.1 hx
    exact (hr r (List.mem_filter.1 hr').1).2
  have e2 : ∀ (m : Row → Bool) (f : Row → Int), (∀ r ∈ rows, 0 ≤ f r ∧ f r < n) →
      bincount ((unique ((rows.filter m).map (fun r => (r.datum, f r)))).map Prod.snd) n
      = some ((List.range n).map (fun l : Nat => dc rows m f (l : Int))) := by
    intro m f hf
    rw [bincount_ok]
    · rfl
    · intro x hx
      simp only [List.mem_map, unique, List.mem_dedup, List.mem_filter] at hx
      obtain ⟨p, ⟨r, ⟨hr', _⟩, rfl⟩, rfl⟩ := hx
      exact hf r hr'
  unfold countsAt
  dsimp only
  rw [e1, e1, e2 _ Row.gt (fun r hr' => (hr r hr').1), e2 _ Row.pd (fun r hr' => (hr r hr').2)]
  simp only [Option.bind_eq_bind, Option.bind_some, Option.pure_def, Option.some.injEq]
  apply List.map_congr_left
  intro l hl
  have hl' : l < n := List.mem_range.1 hl
  simp only [cnt, List.getD_eq_getElem?_getD, List.getElem?_map, List.getElem?_range hl',
    Option.map_some, Option.getD_some, count_map_filter]

theorem mapM_some {α β : Type} (f : α → Option β) (g : α → β) (l : List α)
    (h : ∀ x ∈ l, f x = some (g x)) : l.mapM f = some (l.map g) := by
  induction l with
  | nil => rfl
  | cons a l ih =>
    rw [List.mapM_cons, h a (by simp), ih (fun x hx => h x (by simp [hx]))]
    rfl

theorem computeCounts_eq {rows : List Row} {n : Nat} (hr : InRange rows n) (ts : List Rat) (h : Bool) :
    computeCounts rows ts h n
      = some (ts.map (fun t => (List.range n).map (fun l : Nat => cnt rows h t (l : Int)))) := by
  unfold computeCounts
  split
  · rename_i he
    have : rows = [] := by simpa using he
    subst this
    simp only [cnt_nil, List.map_const', List.length_range]
  · exact mapM_some _ _ _ (fun t _ => countsAt_eq hr h t)

theorem addAll_map {n : Nat} (ts : List Rat) (f g : Rat → Nat → Counts) :
    addAll (ts.map (fun t => (List.range n).map (f t))) (ts.map (fun t => (List.range n).map (g t)))
      = ts.map (fun t => (List.range n).map (fun l => (f t l).add (g t l))) := by
  unfold addAll
  rw [List.zipWith_map_left, List.zipWith_map_right, List.zipWith_self]
  apply List.map_congr_left
  intro t _
  rw [List.zipWith_map_left, List.zipWith_map_right, List.zipWith_self]

theorem foldlM_counts (n : Nat) (ts : List Rat) (h : Bool) (frags : List (List Row)) :
    ∀ (pre : List Row), (∀ f ∈ frags, InRange f n) →
      (∀ f ∈ frags, ∀ x ∈ pre, ∀ y ∈ f, x.datum ≠ y.datum) →
      frags.Pairwise (fun a b => ∀ x ∈ a, ∀ y ∈ b, x.datum ≠ y.datum) →
      frags.foldlM (fun acc f => (computeCounts f ts h n).map (addAll acc))
        (ts.map (fun t => (List.range n).map (fun l : Nat => cnt pre h t (l : Int))))
      = some (ts.map (fun t => (List.range n).map (fun l : Nat => cnt (pre ++ frags.flatten) h t (l : Int)))) := by
  induction frags with
  | nil => intro pre _ _ _; simp
  | cons f fs ih =>
    intro pre hin hpre hp
    rw [List.pairwise_cons] at hp
    rw [List.foldlM_cons, computeCounts_eq (hin f (by simp)) ts h]
    simp only [Option.map_some, Option.bind_eq_bind, Option.bind_some]
    rw [addAll_map]
    have e : ∀ t l, (cnt pre h t l).add (cnt f h t l) = cnt (pre ++ f) h t l := by
      intro t l; rw [cnt_append]; exact hpre f (by simp)
    simp only [e]
    have := ih (pre ++ f) (fun g hg => hin g (by simp [hg])) (by
      intro g hg x hx y hy
      rcases List.mem_append.1 hx with hx | hx
      · exact hpre g (by simp [hg]) x hx y hy
      · exact hp.1 g hg x hx y hy) hp.2
    rw [this]
    simp

/-- The evaluator's loop over datum-aligned tables counts the whole. -/
theorem evalCounts_eq {frags : List (List Row)} {rows : List Row} {n : Nat} (hr : InRange rows n)
    (hf : FragmentsOf frags rows) (ts : List Rat) (h : Bool) :
    evalCounts frags ts h n
      = some (ts.map (fun t => (List.range n).map (fun l : Nat => cnt rows h t (l : Int)))) := by
  unfold evalCounts
  have h0 : (ts.map (fun _ => List.replicate n Counts.zero))
      = ts.map (fun t => (List.range n).map (fun l : Nat => cnt [] h t (l : Int))) := by
    simp only [cnt_nil, List.map_const', List.length_range]
  rw [h0, foldlM_counts n ts h frags [] ?_ (by simp) hf.aligned]
  · simp only [List.nil_append]
    congr 1
    apply List.map_congr_left
    intro t _
    apply List.map_congr_left
    intro l _
    exact cnt_perm hf.perm h t l
  · intro f hf' r hr'
    exact hr r (hf.perm.subset (List.mem_flatten.2 ⟨f, hf', hr'⟩))

end Verif.Classification
