import Verif.Detection.ApProps
import Verif.Detection.CmProps

/-!
# The ranked cache does not depend on the division into tables, and commutes with datum filters

Lemmas for C56 (detection) and C58.
-/

namespace Verif.Detection

open Verif.Classification (unique)
open Verif.Cache (sortBy SortedBy StableOf sorted_stable_unique sortBy_sorted sortBy_stable)

/-- A stable sort commutes with a filter. -/
theorem sortBy_filter {α K : Type} [DecidableEq α] [LinearOrder K] (key : α → K) (D : α → Bool) (t : List α) :
    (sortBy key t).filter D = sortBy key (t.filter D) := by
  apply sorted_stable_unique (key := key)
  · exact (sortBy_sorted key t).filter _
  · exact sortBy_sorted key _
  · intro k
    rw [List.filter_comm, sortBy_stable key t k, sortBy_stable key (t.filter D) k, List.filter_comm]

theorem sortBy_idem {α K : Type} [DecidableEq α] [LinearOrder K] (key : α → K) (t : List α) :
    sortBy key (sortBy key t) = sortBy key t := by
  apply sorted_stable_unique (key := key)
  · exact sortBy_sorted key _
  · exact sortBy_sorted key t
  · intro k
    exact sortBy_stable key (sortBy key t) k

theorem find_congr {α : Type} {p q : α → Bool} {l : List α} (h : ∀ x ∈ l, p x = q x) : l.find? p = l.find? q := by
  induction l with
  | nil => rfl
  | cons a l ih =>
    rw [List.find?_cons, List.find?_cons, h a (by simp), ih (fun x hx => h x (by simp [hx]))]

/-- A prediction id belongs to one datum. -/
def PdOwned (t : List Row) : Prop := ∀ x ∈ t, ∀ y ∈ t, 0 ≤ x.pd → x.pd = y.pd → x.datum = y.datum

theorem PdOwned.subset {t u : List Row} (h : PdOwned t) (hs : ∀ x ∈ u, x ∈ t) : PdOwned u :=
  fun x hx y hy => h x (hs x hx) y (hs y hy)

/-- Rows of selected datums. -/
def onDatums (D : Int → Bool) (r : Row) : Bool := D r.datum

theorem kept_filter (D : Int → Bool) {l : List Row} (h : PdOwned l) :
    (kept l).filter (onDatums D) = kept (l.filter (onDatums D)) := by
  unfold kept
  dsimp only
  generalize hm : unique (((l.filter (fun r => decide (r.pd ≥ 0))).filter labelMatch).map Row.pd) = m
  generalize hm' : unique ((((l.filter (onDatums D)).filter (fun r => decide (r.pd ≥ 0))).filter labelMatch).map Row.pd) = m'
  rw [List.filter_filter, List.filter_filter, List.filter_filter, List.filter_filter]
  apply List.filter_congr
  intro r hr
  by_cases hD : onDatums D r = true
  · by_cases hp : 0 ≤ r.pd
    · have : m.contains r.pd = m'.contains r.pd := by
        rw [Bool.eq_iff_iff, ← hm, ← hm']
        unfold unique
        simp only [List.contains_eq_mem, decide_eq_true_eq, List.mem_dedup, List.mem_map, List.mem_filter]
        constructor
        · rintro ⟨c, ⟨⟨hc, h1⟩, h2⟩, h3⟩
          refine ⟨c, ⟨⟨⟨hc, ?_⟩, h1⟩, h2⟩, h3⟩
          unfold onDatums at hD ⊢
          rw [h c hc r hr h1 h3]
          exact hD
        · rintro ⟨c, ⟨⟨⟨hc, _⟩, h1⟩, h2⟩, h3⟩
          exact ⟨c, ⟨⟨hc, h1⟩, h2⟩, h3⟩
      rw [this]
      simp [hD, hp]
    · simp [hp]
  · simp [hD]

/-- Lists that ascend strictly in a key are equal when they have the same members. -/
theorem eq_of_keys {α K : Type} [LinearOrder K] {key : α → K} {l m : List α} (hl : l.Pairwise (fun a b => key a < key b))
    (hm : m.Pairwise (fun a b => key a < key b)) (h : ∀ r, r ∈ l ↔ r ∈ m) : l = m := by
  have hp : l.Perm m := by
    rw [List.perm_ext_iff_of_nodup]
    · exact h
    · exact hl.imp (fun h e => by subst e; exact lt_irrefl _ h)
    · exact hm.imp (fun h e => by subst e; exact lt_irrefl _ h)
  exact hp.eq_of_pairwise (fun a b _ _ h1 h2 => absurd (lt_trans h1 h2) (lt_irrefl _)) hl hm

theorem uniqueFirst_lt {α : Type} (key : α → List Int) (l : List α) :
    (uniqueFirst key l).Pairwise (fun a b => key a < key b) := by
  have h1 : ((uniqueFirst key l).map key).Pairwise (· ≤ ·) := by
    rw [uniqueFirst_keys]
    exact List.pairwise_insertionSort _ _
  have h2 : ((uniqueFirst key l).map key).Pairwise (· ≠ ·) := uniqueFirst_nodup key l
  have := h1.and h2
  rw [List.pairwise_map] at this
  exact this.imp (fun h => lt_of_le_of_ne h.1 h.2)

theorem uniqueFirst_filter {α : Type} (key : α → List Int) (P : α → Bool) (l : List α)
    (hP : ∀ x ∈ l, ∀ y ∈ l, key x = key y → P x = P y) :
    (uniqueFirst key l).filter P = uniqueFirst key (l.filter P) := by
  apply eq_of_keys (key := key)
  · exact (uniqueFirst_lt key l).filter _
  · exact uniqueFirst_lt key _
  · intro r
    rw [List.mem_filter, mem_uniqueFirst, mem_uniqueFirst, List.find?_filter]
    constructor
    · rintro ⟨h, hr⟩
      rw [← h]
      apply find_congr
      intro x hx
      by_cases hk : key x = key r
      · rw [hP x hx r (List.mem_of_find?_eq_some h) hk, hr]
        simp
      · simp [hk]
    · intro h
      have hr := List.mem_of_find?_eq_some h
      have hs := List.find?_some h
      simp only [decide_true, and_true, Bool.decide_eq_true] at hs
      refine ⟨?_, hs⟩
      rw [← h]
      apply find_congr
      intro x hx
      by_cases hk : key x = key r
      · rw [hP x hx r hr hk, hs]
        simp
      · simp [hk]

/-- The rows that are kept, one for each prediction label, before the final sort. -/
def chosen (t : List Row) : List Row := uniqueFirst pdKey (kept (sortBy rankKey t))

theorem ranked_chosen (t : List Row) : ranked t = lexsort rankKey (chosen t) := by
  rw [ranked_eq, rankPairs_eq]; rfl

theorem chosen_lt (t : List Row) : (chosen t).Pairwise (fun a b => pdKey a < pdKey b) := uniqueFirst_lt _ _

theorem chosen_mem {t : List Row} {r : Row} (h : r ∈ chosen t) : r ∈ t := by
  have := uniqueFirst_mem h
  unfold kept at this
  exact mem_sortBy.1 (List.mem_filter.1 (List.mem_filter.1 this).1).1

theorem chosen_sort (t : List Row) : chosen (sortBy rankKey t) = chosen t := by
  unfold chosen
  rw [sortBy_idem]

/-- Choosing the best pair of each prediction label commutes with a datum filter. -/
theorem chosen_filter (D : Int → Bool) {t : List Row} (h : PdOwned t) :
    (chosen t).filter (onDatums D) = chosen (t.filter (onDatums D)) := by
  unfold chosen
  rw [uniqueFirst_filter, kept_filter, sortBy_filter]
  · exact h.subset (fun x hx => mem_sortBy.1 hx)
  · intro x _ y _ hk
    unfold pdKey at hk
    unfold onDatums
    simp only [List.cons.injEq] at hk
    rw [hk.1]

theorem pdKey_lt_of_datum {a b : Row} (h : a.datum < b.datum) : pdKey a < pdKey b := List.Lex.rel h

/-- The choice works table by table. -/
theorem chosen_append {t u : List Row} (h : PdOwned (t ++ u)) (hd : ∀ x ∈ t, ∀ y ∈ u, x.datum < y.datum) :
    chosen (t ++ u) = chosen t ++ chosen u := by
  let D : Int → Bool := fun d => decide (d ∈ t.map Row.datum)
  have hDt : ∀ x ∈ t, onDatums D x = true := by
    intro x hx
    simp only [onDatums, D, decide_eq_true_eq]
    exact List.mem_map_of_mem hx
  have hDu : ∀ x ∈ u, onDatums D x = false := by
    intro x hx
    simp only [onDatums, D, decide_eq_false_iff_not, List.mem_map, not_exists, not_and]
    intro y hy he
    have := hd y hy x hx
    omega
  have h1 := chosen_filter D h
  have h2 := chosen_filter (fun d => !D d) h
  have e1 : (t ++ u).filter (onDatums D) = t := by
    have hu : u.filter (onDatums D) = [] := List.filter_eq_nil_iff.2 (fun x hx => by rw [hDu x hx]; simp)
    rw [List.filter_append, List.filter_eq_self.2 hDt, hu, List.append_nil]
  have e2 : (t ++ u).filter (onDatums (fun d => !D d)) = u := by
    have ht : t.filter (onDatums (fun d => !D d)) = [] := List.filter_eq_nil_iff.2 (fun x hx => by
      have := hDt x hx
      unfold onDatums at this ⊢
      simp [this])
    rw [List.filter_append, ht, List.nil_append]
    apply List.filter_eq_self.2
    intro x hx
    have := hDu x hx
    unfold onDatums at this ⊢
    simp [this]
  rw [e1] at h1
  rw [e2] at h2
  rw [← h1, ← h2]
  apply eq_of_keys (key := pdKey) (chosen_lt _)
  · rw [List.pairwise_append]
    refine ⟨(chosen_lt _).filter _, (chosen_lt _).filter _, ?_⟩
    intro a ha b hb
    rw [h1] at ha
    rw [h2] at hb
    exact pdKey_lt_of_datum (hd a (chosen_mem ha) b (chosen_mem hb))
  · intro r
    rw [List.mem_append, List.mem_filter, List.mem_filter]
    unfold onDatums
    dsimp only
    generalize D r.datum = b
    cases b <;> simp

theorem chosen_nil : chosen [] = [] := by
  cases h : chosen [] with
  | nil => rfl
  | cons a l => exact absurd (chosen_mem (t := []) (r := a) (by rw [h]; simp)) (by simp)

theorem chosen_flatten {pieces : List (List Row)} (h : PdOwned pieces.flatten)
    (hd : pieces.Pairwise (fun a b => ∀ x ∈ a, ∀ y ∈ b, x.datum < y.datum)) :
    chosen pieces.flatten = (pieces.map chosen).flatten := by
  induction pieces with
  | nil => exact chosen_nil
  | cons p ps ih =>
    rw [List.pairwise_cons] at hd
    rw [List.flatten_cons] at h ⊢
    rw [chosen_append h, ih (h.subset (fun x hx => by simp [hx])) hd.2, List.map_cons, List.flatten_cons]
    intro x hx y hy
    obtain ⟨q, hq, hyq⟩ := List.mem_flatten.1 hy
    exact hd.1 q hq x hx y hyq

/-- A stable sort. -/
theorem lexsort_stable {α : Type} (key : α → List Rat) (l : List α) (k : List Rat) :
    (lexsort key l).filter (fun x => decide (key x = k)) = l.filter (fun x => decide (key x = k)) := by
  unfold lexsort
  induction l with
  | nil => rfl
  | cons a l ih =>
    have : Std.Total (fun a b : α => key a ≤ key b) := ⟨fun a b => le_total _ _⟩
    have : IsTrans α (fun a b => key a ≤ key b) := ⟨fun a b c => le_trans⟩
    rw [List.insertionSort_cons]
    have hs := List.pairwise_insertionSort (fun a b : α => key a ≤ key b) l
    rw [List.filter_cons, ← ih]
    generalize l.insertionSort (fun a b => key a ≤ key b) = m at hs
    clear ih
    induction m with
    | nil => rw [List.orderedInsert, List.filter_cons]
    | cons b m ih =>
      rw [List.orderedInsert]
      split
      · rw [List.filter_cons]
      · rename_i hab
        rw [List.filter_cons, ih (List.pairwise_cons.1 hs).2]
        by_cases hk : key a = k
        · have : key b ≠ k := by
            intro hb
            exact hab (by rw [hk, hb])
          simp [hk, this]
        · rw [List.filter_cons (x := b)]
          simp [hk]

end Verif.Detection
